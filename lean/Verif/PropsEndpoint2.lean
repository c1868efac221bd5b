/-
Properties of the endpoint: receiving messages (C48 to C52).
-/
import Verif.PropsEndpoint
import Verif.PropsMsg2

namespace Verif

theorem Later.reached {ep ep' : Ep} (h : Later ep ep') (h0 : Reached ep) : Reached ep' := by
  induction h with
  | refl => exact h0
  | op o _ h ih => exact .op o ih h
  | rx m r _ h ih => exact .rx m r ih h

theorem Later.steps {ep ep' : Ep} (h : Later ep ep') (h0 : Reached ep) : Steps (ep, {}) (ep', {}) := by
  induction h with
  | refl => exact .refl _
  | op o hl h ih => exact ih.trans (step_tops h (hl.reached h0).busy).2
  | rx m r hl h ih => exact ih.trans (handleRx_tops h (hl.reached h0).busy).2

/-- The state between the automatic answer and the rest. -/
theorem Reached.replied {ep ep1 : Ep} (h : Reached ep) {m k io}
    (h1 : ({ ep with nextId := ep.nextId + 1 }.note (.received k m)).heartbeatReply k m io = .ok ep1) :
    Inv (ep1, {}) ∧ ep1.busy = [] := by
  have g : Goes ep ep1 :=
    (Goes.trans (a := ep) (b := { ep with nextId := ep.nextId + 1 }) (Goes.one rfl fun ph => .number ep ph)
      (Goes.one (a := { ep with nextId := ep.nextId + 1 })
        (b := { ep with nextId := ep.nextId + 1 }.note (.received k m)) rfl
        fun ph => .quiet _ ph _ (.received k m))).trans (heartbeatReply_goes (.head _) h1)
  exact ⟨(g.2 {}).inv h.inv, g.1.trans h.busy⟩

/-- Everything that happens when a message is received. -/
theorem Reached.rxEvents {ep ep' : Ep} (h : Reached ep) {m r} (hr : ep.handleRx m r = .ok ep') :
    ∃ hb tail, RxAdds ep ep' (.received ep.nextId m :: hb ++ ctxEvent ep ep.nextId
        (if m.isResponse then (queueFind ep.reqs m).map (·.id) else none) ++ tail) ∧
      (∀ e ∈ hb, ∃ id r o ok t, e = .send (.heartbeatReply ep.nextId) id r o ok t) ∧
      (m.h.type ≠ 1 → hb = []) ∧ (m.h.type = 1 → ep.sock = false → hb = []) ∧
      (m.h.type = 1 → ep.sock = true → ∀ o, (heartbeatResp m ep.rts).encode = .ok o →
        hb = [.send (.heartbeatReply ep.nextId) (ep.nextId + 1) m.remote o r.io ep.now]) ∧
      (queueFind (if m.isResponse then ep.reqs else ep.resps) m = none → tail = [.dispatch ep.nextId none]) ∧
      (∀ prev, m.isResponse = true → queueFind ep.reqs m = some prev →
        tail = (if prev.m.hasCb then [.respCb prev.id (some ep.nextId) ep.now] ++
            (if respRc prev r = 1 then [.dispatch ep.nextId (some prev.id)] else [])
          else [.dispatch ep.nextId (some prev.id)]) ∧
        ∀ e ∈ ep'.reqs, e.id ≠ prev.id) ∧
      (∀ prev, m.isResponse = false → queueFind ep.resps m = some prev →
        ∃ o, transmissions prev.id ep.log = [(prev.m.remote, o)] ∧
          tail = [.send (.cachedReply ep.nextId) prev.id prev.m.remote o r.io ep.now] ∧ ep'.keeps prev.id) := by
  unfold Ep.handleRx at hr
  obtain ⟨ep1, h1, hr⟩ := Res.bind_eq_ok hr
  obtain ⟨hb, a1, b0, b1, b2, b3, e1, e2, e3, e4, e5, e6, e7, e8, -⟩ := heartbeatReply_adds h1
  obtain ⟨hi1, hb1⟩ := h.replied h1
  simp only [Ep.note] at e1 e2 e3 e4 e5 e6 e7 e8
  have a0 : RxAdds ep ({ ep with nextId := ep.nextId + 1 }.note (.received ep.nextId m)) [.received ep.nextId m] :=
    ⟨[.received ep.nextId m], rfl, rfl⟩
  have a := a0.trans a1
  have hctx : ∀ k req, ctxEvent ep1 k req = ctxEvent ep k req := fun k req => by unfold ctxEvent; rw [e1]
  obtain ⟨ep9, hr, h9⟩ := Res.bind_eq_ok hr
  obtain ⟨he9, -⟩ := releaseUses_ok h9
  have hlog9 : ep'.log = ep9.log := by rw [he9]
  have hreqs9 : ep'.reqs = ep9.reqs := by rw [he9]
  have hresps9 : ep'.resps = ep9.resps := by rw [he9]
  unfold Ep.handleMsg at hr
  rw [e2, e3] at hr
  have fin : ∀ {tl}, RxAdds ep1 ep9 (ctxEvent ep ep.nextId
        (if m.isResponse then (queueFind ep.reqs m).map (·.id) else none) ++ tl) →
      RxAdds ep ep' (.received ep.nextId m :: hb ++ ctxEvent ep ep.nextId
        (if m.isResponse then (queueFind ep.reqs m).map (·.id) else none) ++ tl) := by
    intro tl ht
    have := a.trans ht
    exact RxAdds.log (by simpa using this) rfl hlog9
  cases hq : queueFind (if m.isResponse = true then ep.reqs else ep.resps) m with
  | none =>
    rw [hq] at hr
    dsimp only at hr
    obtain ⟨ep2, h2, hr⟩ := Res.bind_eq_ok hr
    refine ⟨hb, [.dispatch ep.nextId none], fin ?_, b0, b1, b2, b3, fun _ => rfl, ?_, ?_⟩
    · have hx : (if m.isResponse = true then (queueFind ep.reqs m).map (·.id) else none) = none := by
        split
        · rename_i hm; rw [if_pos hm] at hq; rw [hq]; rfl
        · rfl
      rw [hx, ← hctx]
      exact (setCtx_adds h2).trans (dispatch_adds hr)
    · intro prev hm hp; rw [if_pos hm] at hq; rw [hq] at hp; cases hp
    · intro prev hm hp; rw [if_neg (by simp [hm])] at hq; rw [hq] at hp; cases hp
  | some prev =>
    rw [hq] at hr
    dsimp only at hr
    by_cases hm : m.isResponse = true
    · rw [if_pos hm] at hr hq
      refine ⟨hb, (if prev.m.hasCb then [.respCb prev.id (some ep.nextId) ep.now] ++
            (if respRc prev r = 1 then [.dispatch ep.nextId (some prev.id)] else [])
          else [.dispatch ep.nextId (some prev.id)]), fin ?_, b0, b1, b2, b3, fun hx => (by cases hx), fun p _ hp => ?_,
        fun p hx => (by rw [hm] at hx; cases hx)⟩
      · rw [if_pos hm, hq, ← hctx, ← e4]
        exact handleResponse_adds hr
      · rw [hq] at hp
        cases hp
        refine ⟨rfl, ?_⟩
        obtain ⟨ep2, h2, hr⟩ := Res.bind_eq_ok hr
        split at hr
        · obtain ⟨ps, t26, us, rfl⟩ := queueDel_ok hr
          intro e he
          rw [hreqs9] at he
          simpa using (List.mem_filter.mp he).2
        · cases hr
    · rw [if_neg hm] at hr hq
      have hm' : m.isResponse = false := by simpa using hm
      have hp1 : prev ∈ ep1.resps := by rw [e3]; exact (queueFind_some hq).1
      obtain ⟨o, t1, t2, t3⟩ := handleDuplicate_adds hi1 hb1 hp1 hr
      have htr : transmissions prev.id ep.log = [(prev.m.remote, o)] := by
        rw [← t1]
        obtain ⟨l, hl⟩ := heartbeatReply_log h1
        rw [hl, transmissions_append]
        have hnone : transmissions prev.id l = [] := by
          unfold Ep.heartbeatReply at h1
          split at h1
          · obtain ⟨⟨epx, mx, rc⟩, hx1, hx2⟩ := Res.bind_eq_ok h1
            cases hx2
            rcases sendMsg_ok hx1 with ⟨o, _, _, _, hr⟩ | ⟨l', e, enc, hl', -, hr⟩ <;> cases hr
            · have : l = [.send (.heartbeatReply ep.nextId) (ep.nextId + 1) (heartbeatResp m ep.rts).remote o true ep.now] := by
                apply List.append_cancel_right
                exact hl.symm
              rw [this]; rfl
            · have : l = l' := List.append_cancel_right hl.symm
              subst this
              rcases hl' with ⟨rfl, _⟩ | ⟨o, _, rfl⟩ <;> rfl
          · cases h1
            have : l = [] := by
              have := congrArg List.length hl
              simp at this
              exact this
            rw [this]; rfl
        rw [hnone]
        simp [Ep.note, transmissions]
      refine ⟨hb, [.send (.cachedReply ep.nextId) prev.id prev.m.remote o r.io ep.now], fin ?_, b0, b1, b2, b3,
        fun hx => (by cases hx), fun p hx => absurd hx hm, fun p _ hp => ?_⟩
      · rw [if_neg hm, ← hctx, ← e4]
        exact t2
      · rw [hq] at hp
        cases hp
        exact ⟨o, htr, rfl, by unfold Ep.keeps; rw [hresps9]; exact t3⟩

theorem dispatches_rxEvents (l : List Event) : dispatches l = dispatches (rxEvents l).reverse := by
  unfold dispatches rxEvents
  rw [List.reverse_reverse, List.filterMap_filter]
  congr 1
  funext e
  cases e
  case send why _ _ _ _ _ => cases why <;> rfl
  case respCb _ r _ => cases r <;> rfl
  all_goals rfl

theorem respCalls_rx {id : Nat} {l : List Event} {k} :
    some k ∈ respCalls id l ↔ ∃ t, Event.respCb id (some k) t ∈ rxEvents l := by
  simp only [respCalls, rxEvents, List.mem_filterMap, List.mem_reverse, List.mem_filter]
  constructor
  · rintro ⟨e, he, hx⟩
    split at hx
    · rename_i i resp t
      split at hx
      · rename_i hi
        subst hi
        cases hx
        exact ⟨t, he, rfl⟩
      · cases hx
    · cases hx
  · rintro ⟨t, he, _⟩
    exact ⟨_, he, by simp⟩

namespace Props

theorem reqs_kind {ep : Ep} (h : Reached ep) {m : PMsg} (hm : m.isResponse = true) :
    ∀ e ∈ ep.reqs, e.m.isResponse = !m.isResponse := fun e he => by
  rw [((C53_queues h).1 e he).1, hm]; rfl

theorem resps_kind {ep : Ep} (h : Reached ep) {m : PMsg} (hm : m.isResponse = false) :
    ∀ e ∈ ep.resps, e.m.isResponse = !m.isResponse := fun e he => by
  rw [((C53_queues h).2 e he).1, hm]; rfl

/-! ### C51: dispatch -/

/-- C51.  When a message is received, rx_msg_cb() is called:
* not at all for a request with the sequence number of a response that is kept (a duplicate);
* not at all for a response to a request whose resp_cb() returns something other than 1;
* otherwise once, with the pending request that has the sequence number of the response, if there is one,
  and else with NULL. -/
theorem C51_dispatch_rule {ep ep' : Ep} (h : Reached ep) {m r} (hr : ep.handleRx m r = .ok ep') :
    ∃ l, ep'.log = l ++ ep.log ∧
      (m.isResponse = false → (∃ e ∈ ep.resps, e.m.h.seq = m.h.seq) → dispatches l = []) ∧
      (m.isResponse = false → (∀ e ∈ ep.resps, e.m.h.seq ≠ m.h.seq) → dispatches l = [(ep.nextId, none)]) ∧
      (m.isResponse = true → (∀ e ∈ ep.reqs, e.m.h.seq ≠ m.h.seq) → dispatches l = [(ep.nextId, none)]) ∧
      (m.isResponse = true → (∃ e ∈ ep.reqs, e.m.h.seq = m.h.seq) → ∃ e ∈ ep.reqs, e.m.h.seq = m.h.seq ∧
        dispatches l = if e.m.hasCb = true ∧ respRc e r ≠ 1 then [] else [(ep.nextId, some e.id)]) := by
  obtain ⟨hb, tail, ⟨l, hl, hx⟩, b0, -, -, -, c1, c2, c3⟩ := h.rxEvents hr
  have hd : dispatches l = dispatches tail.reverse := by
    rw [dispatches_rxEvents, hx]
    have h1 : dispatches hb.reverse = [] := by
      simp only [dispatches, List.filterMap_eq_nil_iff, List.mem_reverse]
      intro e he
      obtain ⟨id, r, o, ok, t, rfl⟩ := b0 e he
      rfl
    have h2 : dispatches (ctxEvent ep ep.nextId
        (if m.isResponse then (queueFind ep.reqs m).map (·.id) else none)).reverse = [] := by
      unfold ctxEvent; split <;> rfl
    simp only [List.reverse_append, List.reverse_cons, dispatches, List.filterMap_append] at h1 h2 ⊢
    simp [h1, h2]
  refine ⟨l, hl, ?_, ?_, ?_, ?_⟩
  · rintro hm ⟨e, he, hs⟩
    cases hf : queueFind ep.resps m with
    | none => exact absurd hs ((queueFind_none (resps_kind h hm)).mp hf e he)
    | some prev =>
      obtain ⟨o, _, ht, _⟩ := c3 prev hm hf
      rw [hd, ht]; rfl
  · intro hm hn
    rw [hd, c1 (by rw [if_neg (by simp [hm])]; exact (queueFind_none (resps_kind h hm)).mpr hn)]; rfl
  · intro hm hn
    rw [hd, c1 (by rw [if_pos hm]; exact (queueFind_none (reqs_kind h hm)).mpr hn)]; rfl
  · rintro hm ⟨e, he, hs⟩
    cases hf : queueFind ep.reqs m with
    | none => exact absurd hs ((queueFind_none (reqs_kind h hm)).mp hf e he)
    | some prev =>
      obtain ⟨h1, h2⟩ := queueFind_some hf
      refine ⟨prev, h1, h2, ?_⟩
      rw [hd, (c2 prev hm hf).1]
      by_cases hc : prev.m.hasCb = true
      · by_cases hrc : respRc prev r = 1 <;> simp [hc, hrc, dispatches]
      · simp [hc, dispatches]

/-- C51: the messages of a datagram are received one after the other, those whose IEs cannot be decoded are
left out, and so is all that follows a header that cannot be decoded. -/
theorem C51_datagram {ep ep' : Ep} (h : Reached ep) {remote d rs} (hs : ep.sock = true)
    (hr : ep.rxDatagram remote d rs = .ok ep') (hd : d ≠ []) :
    ∃ msgs l, rxBundle (min d.length 2048 + 1) (.received (d.take 2048)) (List.replicate (2048 - d.length) 0) =
        .ok msgs ∧
      ep'.log = l ++ ep.log ∧
      receivedMsgs l = msgs.filterMap fun x => x.ies.map (Rx.msg remote x.hdr) := by
  unfold Ep.rxDatagram at hr
  dsimp only at hr
  rw [if_neg, if_neg] at hr
  rotate_left
  · simp [(C53_receives h).1 hs]
  · simp [hs, hd, allocSize]
  obtain ⟨msgs, h1, hr⟩ := Res.bind_eq_ok hr
  have hlen : (d.take allocSize).length = min d.length 2048 := by simp [allocSize, Nat.min_comm]
  have hrep : allocSize - min d.length 2048 = 2048 - d.length := by simp only [allocSize]; omega
  rw [hlen, hrep] at h1
  have key : ∀ (msgs : List Rx) (rs : List React) (ep ep' : Ep), Reached ep → ep.handleAll remote msgs rs = .ok ep' →
      ∃ l, ep'.log = l ++ ep.log ∧ receivedMsgs l = msgs.filterMap fun x => x.ies.map (Rx.msg remote x.hdr) := by
    intro msgs
    induction msgs with
    | nil => intro rs ep ep' _ hr; cases hr; exact ⟨[], rfl, rfl⟩
    | cons x msgs ih =>
      intro rs ep ep' h hr
      obtain ⟨dh, ies⟩ := x
      cases ies with
      | none =>
        obtain ⟨l, h1, h2⟩ := ih rs ep ep' h hr
        exact ⟨l, h1, by simpa using h2⟩
      | some ies =>
        obtain ⟨ep1, h1, hr⟩ := Res.bind_eq_ok hr
        obtain ⟨hb, tail, ⟨l, hl, hx⟩, b0, -, -, -, c1, c2, c3⟩ := h.rxEvents h1
        obtain ⟨l', h2, h3⟩ := ih _ ep1 ep' (.rx _ _ h h1) hr
        refine ⟨l' ++ l, by rw [h2, hl, List.append_assoc], ?_⟩
        have hrec : receivedMsgs l = [Rx.msg remote dh ies] := by
          unfold receivedMsgs
          rw [hx]
          have e1 : hb.filterMap Event.rxMsg = [] := by
            simp only [List.filterMap_eq_nil_iff]
            intro e he
            obtain ⟨id, r, o, ok, t, rfl⟩ := b0 e he
            rfl
          have e2 : tail.filterMap Event.rxMsg = [] := by
            cases hm : (Rx.msg remote dh ies).isResponse with
            | true =>
              cases hf : queueFind ep.reqs (Rx.msg remote dh ies) with
              | none => rw [c1 (by rw [if_pos hm]; exact hf)]; rfl
              | some prev =>
                rw [(c2 prev hm hf).1]
                split
                · split <;> rfl
                · rfl
            | false =>
              cases hf : queueFind ep.resps (Rx.msg remote dh ies) with
              | none => rw [c1 (by rw [if_neg (by simp [hm])]; exact hf)]; rfl
              | some prev =>
                obtain ⟨o, _, ht, _⟩ := c3 prev hm hf
                rw [ht]; rfl
          have e3 : ∀ req, (ctxEvent ep ep.nextId req).filterMap
              Event.rxMsg = ([] : List PMsg) := by
            intro req; unfold ctxEvent; split <;> rfl
          simp [List.filterMap_append, e1, e2, e3, Event.rxMsg]
        unfold receivedMsgs at hrec h3 ⊢
        rw [rxEvents_append, List.filterMap_append, hrec, h3]
        simp
  obtain ⟨l, h2, h3⟩ := key msgs rs ep ep' h hr
  exact ⟨msgs, l, h1, h2, h3⟩

end Props
end Verif
