/-
C63 (when an Association Setup is tried again) and C65 (the use counts that a received message holds), in more detail.
-/
import Verif.EndpointRetry
import Verif.PropsPeer

namespace Verif

namespace Props

/-! ### C63: the time of the retry -/

/-- The T26 of the model is the one that was set last. -/
theorem _root_.Verif.Reached.t26 {ep : Ep} (h : Reached ep) : ep.t26 = t26In ep.log := by
  induction h with
  | create => rfl
  | @op ep ep' op _ hs ih =>
    by_cases ho : ∃ ms, op = .advance ms
    · obtain ⟨ms, rfl⟩ := ho
      cases hs
      exact ih
    · obtain ⟨l, hw⟩ := step_waits hs fun ms hx => ho ⟨ms, hx⟩
      exact hw.cur ih
  | rx m r _ hs ih =>
    obtain ⟨l, hw⟩ := handleRx_waits hs
    exact hw.cur ih

/-- C63: whenever the retry timer of a CP peer runs after some event of a history, then it was running before that, for
the same time `d` and without a change of the CP peer's state; or it was started now, for T26 from now on: the T26 that was in force
before the event, or one that was set during it. -/
theorem C63_retry_time {ep ep' : Ep} (h : Reached ep) {op : Op} (hs : op.step ep = .ok ep') {fi p' d}
    (hp : ep'.peer? fi = some p') (ht : p'.timer = some d) :
    ∃ l, ep'.log = l ++ ep.log ∧
      ((∃ p, ep.peer? fi = some p ∧ p.timer = some d ∧ ∀ s, Event.peer fi (.state s) ∉ l) ∨
       ∃ t, t ≠ 0 ∧ d = ep.now + t ∧ (t = t26In ep.log ∨ Event.configT26 t ∈ l)) := by
  by_cases ho : ∃ ms, op = .advance ms
  · obtain ⟨ms, rfl⟩ := ho
    cases hs
    exact ⟨[], rfl, .inl ⟨p', hp, ht, by simp⟩⟩
  · obtain ⟨l, hw⟩ := step_waits hs fun ms hx => ho ⟨ms, hx⟩
    refine ⟨l, hw.log, ?_⟩
    rcases hw.timer fi p' d hp ht with hx | ⟨t, h0, hd, hi⟩
    · exact .inl hx
    · exact .inr ⟨t, h0, hd, by rw [← h.t26]; exact hi⟩

/-- C63: and a CP peer that has come to WAIT_RETRY has its timer started, unless T26 is 0: here for the event that brings it
there. -/
theorem C63_retry_starts {ep ep' : Ep} (h : Reached ep) {op : Op} (hs : op.step ep = .ok ep') {fi p' l}
    (hl : ep'.log = l ++ ep.log) (hp : ep'.peer? fi = some p') (hst : p'.state = .waitRetry) (hch : ∃ s, Event.peer fi (.state s) ∈ l)
    (hn : ¬ (t26In ep.log = 0 ∨ Event.configT26 0 ∈ l)) :
    ∃ t, t ≠ 0 ∧ p'.timer = some (ep.now + t) ∧ (t = t26In ep.log ∨ Event.configT26 t ∈ l) := by
  obtain ⟨s, hch⟩ := hch
  cases ht : p'.timer with
  | some d =>
    obtain ⟨l', hl', hx⟩ := C63_retry_time h hs hp ht
    rw [hl] at hl'
    cases List.append_cancel_right hl'
    rcases hx with ⟨_, _, _, hno⟩ | ⟨t, h0, rfl, hi⟩
    · exact absurd hch (hno s)
    · exact ⟨t, h0, rfl, hi⟩
  | none =>
    exfalso
    have ho : ∀ ms, op ≠ .advance ms := by
      rintro ms rfl
      cases hs
      have : l = [] := List.append_left_eq_self.1 hl.symm
      rw [this] at hch
      cases hch
    obtain ⟨l', hw⟩ := step_waits hs ho
    have hl' := hw.log
    rw [hl] at hl'
    cases List.append_cancel_right hl'
    rcases hw.starts fi p' hp hst ht with ⟨_, _, _, _, hno⟩ | hi
    · exact hno s hch
    · refine hn ?_
      rcases hi with hi | hi
      · exact .inl (h.t26 ▸ hi.symm)
      · exact .inr hi

/-- C63: before that time, nothing happens; and there is no other reason for which the timer's function does anything. -/
theorem C63_not_before (ep : Ep) (fi : Nat) (io : Bool)
    (h : ∀ p, ep.peer? fi = some p → ∀ d, p.timer = some d → ep.now < d) : (Op.peerTimer fi io).step ep = .ok ep := by
  show ep.peerTimer fi io = .ok ep
  unfold Ep.peerTimer
  split
  · rfl
  · rename_i p hp
    refine if_pos ?_
    cases ht : p.timer with
    | none => simp
    | some d =>
      have := h p hp d ht
      simp [this]

/-- When the retry timer of a CP peer is due. -/
def retryAt (fi : Nat) (ops : List Op) : Option (Option Nat) :=
  match exec ops exEp with
  | .ok ep => (ep.peer? fi).map fun p => p.timer
  | _ => none

/-- Example: 300 ms after the start, the Association Setup is rejected: there is another attempt 15 seconds later; when T26
was set to 2 seconds before, after these; when it is set after that, still 15 seconds later. -/
example : retryAt 7 (exAssociate ++ [.advance 300, .rx exUpf exReject []]) = some (some 15300) ∧
    retryAt 7 (exAssociate ++ [.advance 300, .app (.setT26 2000 .done), .rx exUpf exReject []]) = some (some 2300) ∧
    retryAt 7 (exAssociate ++ [.advance 300, .rx exUpf exReject [], .app (.setT26 2000 .done), .advance 50]) = some (some 15300) := by
  refine ⟨?_, ?_, ?_⟩ <;> (set_option maxRecDepth 100000 in rfl)

/-- What can be checked of a history and its last event. -/
def lastB (ops : List Op) (op : Op) (f : Ep → Ep → Bool) : Bool :=
  match exec ops exEp with
  | .ok ep => match op.step ep with | .ok ep' => f ep ep' | _ => false
  | _ => false

theorem lastB_ok {ops op f} (h : lastB ops op f = true) :
    ∃ ep ep', Reached ep ∧ op.step ep = .ok ep' ∧ f ep ep' = true := by
  unfold lastB at h
  split at h
  · rename_i ep hep
    split at h
    · rename_i ep' hs
      exact ⟨ep, ep', Reached.exec exEp_reached hep, hs, h⟩
    · cases h
  · cases h

/-- The hypotheses of C63_retry_time and C63_retry_starts, for the rejection. -/
example : ∃ ep ep' p' l, Reached ep ∧ (Op.rx exUpf exReject []).step ep = .ok ep' ∧ ep'.log = l ++ ep.log ∧ ep'.peer? 7 = some p' ∧
    p'.timer = some 15300 ∧ p'.state = .waitRetry ∧ (∃ s, Event.peer 7 (.state s) ∈ l) ∧
    ¬ (t26In ep.log = 0 ∨ Event.configT26 0 ∈ l) := by
  obtain ⟨ep, ep', hr, hs, hf⟩ := lastB_ok (ops := exAssociate ++ [.advance 300]) (op := .rx exUpf exReject [])
    (f := fun ep ep' => match ep'.peer? 7 with
      | some p' => p'.timer == some 15300 && (p'.state == .waitRetry) && t26In ep.log == 15000 &&
          ((ep'.log.take (ep'.log.length - ep.log.length)).any fun e => match e with | .peer f (.state _) => f == 7 | _ => false) &&
          (ep'.log.all fun e => match e with | .configT26 _ => false | _ => true)
      | none => false) (by decide +kernel)
  obtain ⟨l, hw⟩ := step_waits hs (by simp)
  cases hp : ep'.peer? 7 with
  | none => rw [hp] at hf; cases hf
  | some p' =>
    rw [hp] at hf
    simp only [Bool.and_eq_true, beq_iff_eq] at hf
    obtain ⟨⟨⟨⟨h1, h2⟩, h3⟩, h4⟩, h5⟩ := hf
    have hl : ep'.log.take (ep'.log.length - ep.log.length) = l := by rw [hw.log]; simp
    rw [hl] at h4
    obtain ⟨e, he, h4⟩ := List.any_eq_true.1 h4
    refine ⟨ep, ep', p', l, hr, hs, hw.log, hp, h1, h2, ?_, ?_⟩
    · split at h4
      · rename_i f s
        simp only [beq_iff_eq] at h4
        exact ⟨s, h4 ▸ he⟩
      · cases h4
    · rintro (hx | hx)
      · rw [h3] at hx; cases hx
      · have := List.all_eq_true.1 h5 (.configT26 0) (by rw [hw.log]; exact List.mem_append_left _ hx)
        cases this

/-! ### C65: received messages -/

/-- C65, exactly: the same in all cases, with the use counts that were lost by osmo_pfcp_endpoint_invalidate_ctx(). -/
theorem C65_received_exactly {ep ep1 : Ep} (h : Reached ep) {k m r} (hk : .received k m ∈ ep.log) (hc : ep.cfg.hasSetCtx = true)
    (hx : ep.handleMsg k m r = .ok ep1) (u : Nat × Nat) :
    ep1.use u = holders u ep1.log + lostUses u ep1.log + (if r.session = some u then 1 else 0) +
      (if r.peer = some u.1 ∧ u.2 = tokenRx then 1 else 0) := by
  have hb := (handleMsg_both h.both hk hx).1.use.exact_ u
  rw [hb]
  unfold Ep.rxUses
  rw [if_pos hc]
  have hn : ∀ o : Option (Nat × Nat), o.toList.count u = if o = some u then 1 else 0 := by
    intro o
    cases o with
    | none => simp
    | some v => by_cases hv : v = u <;> simp [hv]
  simp only [List.append_nil, List.count_append, hn]
  have hi : (r.peer.map fun fi => (fi, tokenRx)) = some u ↔ r.peer = some u.1 ∧ u.2 = tokenRx := by
    cases r.peer with
    | none => simp
    | some fi =>
      obtain ⟨a, b⟩ := u
      simp only [Option.map_some, Option.some.injEq, Prod.mk.injEq]
      exact and_congr_right fun _ => eq_comm
  simp only [hi]
  omega

/-- C65: when a received message has been handled, and before it is freed, each use count is the number of messages in
osmo_pfcp_endpoint_tx() or its queues that hold it, and one more for each time set_msg_ctx_cb() has taken it for the received message.
(Provided that no message has lost it by osmo_pfcp_endpoint_invalidate_ctx().) -/
theorem C65_received_partial {ep ep1 : Ep} (h : Reached ep) {k m r} (hk : .received k m ∈ ep.log) (hc : ep.cfg.hasSetCtx = true)
    (hx : ep.handleMsg k m r = .ok ep1) {u} (hu : Undisturbed u ep1.log) :
    ep1.use u = holders u ep1.log + (if r.session = some u then 1 else 0) +
      (if r.peer = some u.1 ∧ u.2 = tokenRx then 1 else 0) := by
  have hb := C65_received_exactly h hk hc hx u
  rw [lostUses_undisturbed hu] at hb
  exact hb

/-- C65: in any case, the use counts taken for a received message are held until it is freed. -/
theorem C65_received_held {ep ep1 : Ep} (h : Reached ep) {k m r} (hk : .received k m ∈ ep.log) (hc : ep.cfg.hasSetCtx = true)
    (hx : ep.handleMsg k m r = .ok ep1) :
    (∀ fi, r.peer = some fi → 0 < ep1.use (fi, tokenRx)) ∧ ∀ u, r.session = some u → 0 < ep1.use u := by
  have hb := (handleMsg_both h.both hk hx).1.use.le
  unfold Ep.rxUses at hb
  simp only [if_pos hc, List.append_nil] at hb
  refine ⟨fun fi hf => ?_, fun u hf => ?_⟩
  · have h1 := hb (fi, tokenRx)
    rw [hf] at h1
    simp only [Option.map_some, Option.toList_some, List.count_append, List.count_cons_self] at h1
    omega
  · have h1 := hb u
    rw [hf] at h1
    simp only [Option.toList_some, List.count_append, List.count_cons_self] at h1
    omega

/-- What a received message is for the model, if there were no IEs. -/
def exGot : PMsg := { remote := exUpf, isResponse := false, h := { version := 1, type := 52, seq := 9 }, ies := [] }

def heldB : Bool :=
  match exec exAssociate exEp with
  | .ok ep0 => match ep0.handleRx exGot {} with
    | .ok ep => match ep.handleMsg 1 exGot { peer := some 7, session := some (20, 3) } with
      | .ok ep1 => ep0.nextId == 1 && ep.cfg.hasSetCtx && ep1.use (7, tokenRx) == 1 && ep1.use (20, 3) == 1 &&
          ep1.use (7, tokenTx) == 1 && !anyInvalidated ep1.log
      | _ => false
    | _ => false
  | _ => false

/-- Example: a request is received (number 1) while the CP peer's own one is pending, and set_msg_ctx_cb() takes the CP peer's
use count, and that of a session. -/
example : ∃ ep ep1, Reached ep ∧ .received 1 exGot ∈ ep.log ∧ ep.cfg.hasSetCtx = true ∧
    ep.handleMsg 1 exGot { peer := some 7, session := some (20, 3) } = .ok ep1 ∧
    ep1.use (7, tokenRx) = 1 ∧ ep1.use (20, 3) = 1 ∧ ep1.use (7, tokenTx) = 1 ∧ Undisturbed (7, tokenRx) ep1.log := by
  have h : heldB = true := by decide +kernel
  unfold heldB at h
  split at h
  rotate_left
  · cases h
  rename_i ep0 h0
  split at h
  rotate_left
  · cases h
  rename_i ep h1
  split at h
  rotate_left
  · cases h
  rename_i ep1 h2
  simp only [Bool.and_eq_true, beq_iff_eq, Bool.not_eq_true'] at h
  obtain ⟨⟨⟨⟨⟨h3, h4⟩, h5⟩, h6⟩, h7⟩, h8⟩ := h
  have hr := Reached.exec exEp_reached h0
  refine ⟨ep, ep1, .rx _ _ hr h1, ?_, h4, h2, h5, h6, h7, undisturbed_of h8 _⟩
  unfold Ep.handleRx at h1
  obtain ⟨ep2, h9, h1⟩ := Res.bind_eq_ok h1
  obtain ⟨ep3, h10, h1⟩ := Res.bind_eq_ok h1
  obtain ⟨l, hl⟩ := heartbeatReply_log h9
  obtain ⟨l2, hl2⟩ := handleMsg_waits h10
  obtain ⟨l3, hl3⟩ := releaseUses_waits h1
  rw [hl3.log, hl2.log, hl, h3]
  simp [Ep.note]

end Props

end Verif
