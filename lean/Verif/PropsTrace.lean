/-
The trace of reception, and how much an endpoint sends: C117.
-/
import Verif.SpecTrace
import Verif.TimedLemmas

namespace Verif.Props
open Verif Spec

theorem _root_.Verif.Micro.cfg {a b : Ep × Ph} (h : Micro a b) : b.1.cfg = a.1.cfg := by
  cases h <;> simp [Ep.logs, Ep.note, Ep.dropCtx, Ep.closed, Ep.enqueue]
  case txQueued => split <;> simp

theorem _root_.Verif.Steps.fixed {a b : Ep × Ph} (h : Steps a b) : b.1.cfg = a.1.cfg ∧ b.1.rts = a.1.rts := by
  induction h with
  | refl => exact ⟨rfl, rfl⟩
  | snoc _ hm ih => exact ⟨hm.cfg.trans ih.1, hm.rts.trans ih.2⟩

theorem op_fixed {op : Op} {ep ep' : Ep} (h : Reached ep) (hs : op.step ep = .ok ep') : ep'.cfg = ep.cfg ∧ ep'.rts = ep.rts :=
  (step_tops hs h.busy).2.fixed

theorem _root_.Verif.Spec.RxEnd.grow' {log k m req t} (h : RxEnd log k m req t) (l : List Event) : RxEnd (l ++ log) k m req t := by
  cases h with
  | fresh => exact .fresh
  | again ok t h1 h2 h3 h4 h5 => exact .again ok t h1 (List.mem_append_right _ h2) h3 h4 h5
  | told t h1 h2 h3 h4 h5 => exact .told t h1 (List.mem_append_right _ h2) h3 h4 h5
  | toldOn t h1 h2 h3 h4 h5 => exact .toldOn t h1 (List.mem_append_right _ h2) h3 h4 h5
  | handed h1 h2 h3 h4 => exact .handed h1 (List.mem_append_right _ h2) h3 h4

theorem _root_.Verif.Spec.RxBlock.grow' {c r log k m t} (h : RxBlock c r log k m t) (l : List Event) : RxBlock c r (l ++ log) k m t := by
  obtain ⟨hb, req, tail, h1, h2, h3⟩ := h
  exact ⟨hb, req, tail, h1, h2.grow' l, h3⟩

/-- What one received message adds. -/
theorem rx_block {ep ep' : Ep} (h : Reached ep) {m r} (hr : ep.handleRx m r = .ok ep') :
    ∃ t, RxAdds ep ep' t ∧ RxBlock ep.cfg.hasSetCtx ep.rts ep.log ep.nextId m t := by
  obtain ⟨hb, tail, ha, b0, b1, b2, b3, c1, c2, c3⟩ := h.rxEvents hr
  have hauto : AutoReply ep.rts ep.nextId m hb := by
    by_cases ht : m.h.type = 1
    · by_cases hs : ep.sock = true
      · exact .inr ⟨ht, _, _, _, b3 ht hs _ (heartbeatResp_encode m ep.rts)⟩
      · exact .inl (b2 ht (by simpa using hs))
    · exact .inl (b1 ht)
  refine ⟨_, ha, hb, _, tail, hauto, ?_, rfl⟩
  cases hm : m.isResponse with
  | true =>
    rw [if_pos rfl]
    cases hf : queueFind ep.reqs m with
    | none =>
      rw [c1 (by rw [if_pos hm]; exact hf)]
      exact .fresh
    | some prev =>
      obtain ⟨hp, hsq⟩ := queueFind_some hf
      obtain ⟨n1, t1, q, o, hl, hs, hrr, _⟩ := h.inv.request (look_of_mem h.inv.nodupReqs hp) rfl
      have hpass := (hl.tally.info n1 t1 q).mpr rfl
      have hseq : q.h.seq = m.h.seq := by rw [← hs.seq, hsq]
      rw [(c2 prev hm hf).1]
      by_cases hc : prev.m.hasCb = true
      · have hc' : q.hasCb = true := by rw [← hs.hasCb]; exact hc
        rw [if_pos hc]
        split
        · exact .toldOn _ hm hpass hrr hseq hc'
        · exact .told _ hm hpass hrr hseq hc'
      · rw [if_neg hc]
        exact .handed hm hpass hrr hseq
  | false =>
    rw [if_neg (by simp)]
    cases hf : queueFind ep.resps m with
    | none =>
      rw [c1 (by rw [if_neg (by simp [hm])]; exact hf)]
      exact .fresh
    | some prev =>
      obtain ⟨o, t1, ht, _⟩ := c3 prev hm hf
      obtain ⟨hp, hsq⟩ := queueFind_some hf
      obtain ⟨n1, tt1, resp, o', hlf, hsame, hrr, _⟩ := h.inv.response (look_of_mem h.inv.nodupResps hp)
      have hpass := (hlf.tally.info n1 tt1 resp).mpr rfl
      have := (C46_bounded_identical h hpass).2.1 _ (by rw [t1]; exact List.mem_singleton_self _)
      have he : prev.m.remote = resp.remote := this.1
      rw [ht, he]
      exact .again _ _ hm hpass hrr (by rw [← hsame.seq, hsq]) this.2

/-- The trace so far. -/
structure Traced (c : Bool) (r : Nat) (ep : Ep) (bs : List (Nat × PMsg × List Event)) : Prop where
  events : rxEvents ep.log = (bs.map (·.2.2)).flatten
  blocks : ∀ b ∈ bs, RxBlock c r ep.log b.1 b.2.1 b.2.2
  order : (bs.map (·.1)).Pairwise (· < ·)
  lt : ∀ b ∈ bs, b.1 < ep.nextId

theorem Traced.rx {c r} {ep ep' : Ep} {bs} (hn : Traced c r ep bs) (h : Reached ep) (hc : ep.cfg.hasSetCtx = c) (hr : ep.rts = r) {m a}
    (hs : ep.handleRx m a = .ok ep') : ∃ bs', Traced c r ep' bs' := by
  obtain ⟨t, ⟨n, hl, ht⟩, hb⟩ := rx_block h hs
  rw [hc, hr] at hb
  have hlt := handleRx_next h hs
  refine ⟨bs ++ [(ep.nextId, m, t)], ?_, ?_, ?_, ?_⟩
  · rw [hl, rxEvents_append, ht, hn.events]
    simp
  · intro b hm
    rw [hl]
    rcases List.mem_append.1 hm with hm | hm
    · exact (hn.blocks b hm).grow' n
    · cases List.mem_singleton.1 hm
      exact hb.grow' n
  · rw [List.map_append, List.pairwise_append]
    refine ⟨hn.order, by simp, fun x hx y hy => ?_⟩
    obtain ⟨b, hb, rfl⟩ := List.mem_map.1 hx
    cases List.mem_singleton.1 hy
    exact hn.lt b hb
  · intro b hm
    rcases List.mem_append.1 hm with hm | hm
    · exact Nat.lt_trans (hn.lt b hm) hlt
    · cases List.mem_singleton.1 hm
      exact hlt

theorem Traced.local {c r} {ep ep' : Ep} {bs} (hn : Traced c r ep bs) (hle : ep.nextId ≤ ep'.nextId) {l} (hl : ep'.log = l ++ ep.log)
    (hx : ∀ e ∈ l, isRx e = false) : Traced c r ep' bs := by
  refine ⟨?_, fun b hb => by rw [hl]; exact (hn.blocks b hb).grow' l, hn.order, fun b hb => Nat.lt_of_lt_of_le (hn.lt b hb) hle⟩
  rw [hl, rxEvents_append, hn.events]
  have : rxEvents l = [] := by
    simp only [rxEvents, List.reverse_eq_nil_iff, List.filter_eq_nil_iff]
    intro e he
    rw [hx e he]
    simp
  rw [this, List.append_nil]

/-- The trace, with what does not change. -/
def Trace (ep : Ep) : Prop := ∃ bs, Traced ep.cfg.hasSetCtx ep.rts ep bs

theorem handleRx_fixed {ep ep' : Ep} (h : Reached ep) {m r} (hr : ep.handleRx m r = .ok ep') : ep'.cfg = ep.cfg ∧ ep'.rts = ep.rts :=
  (handleRx_tops hr h.busy).2.fixed

theorem Trace.rx {ep ep' : Ep} (hn : Trace ep) (h : Reached ep) {m a} (hs : ep.handleRx m a = .ok ep') : Trace ep' := by
  obtain ⟨bs, hn⟩ := hn
  obtain ⟨f1, f2⟩ := handleRx_fixed h hs
  unfold Trace
  rw [f1, f2]
  exact hn.rx h rfl rfl hs

theorem Trace.all {remote} : ∀ {l : List Rx} {rs} {ep ep' : Ep}, Trace ep → Reached ep → ep.handleAll remote l rs = .ok ep' → Trace ep'
  | [], _, ep, ep', hn, _, h => by cases h; exact hn
  | ⟨_, none⟩ :: l, rs, ep, ep', hn, h0, h => Trace.all (l := l) hn h0 h
  | ⟨d, some ies⟩ :: l, rs, ep, ep', hn, h0, h => by
    obtain ⟨ep1, h1, h⟩ := Res.bind_eq_ok h
    exact Trace.all (hn.rx h0 h1) (h0.rx _ _ h1) h

/-- C117: in every history, what happens because messages are received is a sequence of blocks, one for each received message, in the order
of reception and never interleaved: the message; the Heartbeat Response if it is a Heartbeat Request; set_msg_ctx_cb(); and then exactly
one of: rx_msg_cb(); the repetition of an earlier response with its sequence number; resp_cb() and/or rx_msg_cb() with the request
that has its sequence number. -/
theorem C117_trace {ep : Ep} (h : Reached ep) : ∃ bs : List (Nat × PMsg × List Event),
    rxEvents ep.log = (bs.map (·.2.2)).flatten ∧ (bs.map (·.1)).Pairwise (· < ·) ∧
    ∀ b ∈ bs, RxBlock ep.cfg.hasSetCtx ep.rts ep.log b.1 b.2.1 b.2.2 := by
  suffices hT : Trace ep by
    obtain ⟨bs, h1⟩ := hT
    exact ⟨bs, h1.events, h1.order, h1.blocks⟩
  induction h with
  | create => exact ⟨[], rfl, by simp, by simp, by simp⟩
  | rx m r h hr ih => exact ih.rx h hr
  | @op ep ep' op h hs ih =>
    by_cases hl : op.isLocal
    · obtain ⟨l, h1, h2⟩ := Op.local_log hl hs
      obtain ⟨f1, f2⟩ := op_fixed h hs
      obtain ⟨bs, ih⟩ := ih
      refine ⟨bs, ?_⟩
      rw [f1, f2]
      exact ih.local (Op.onward h hs).next h1 h2
    · cases op with
      | rx s d rs =>
        replace hs : ep.rxDatagram s d rs = .ok ep' := hs
        unfold Ep.rxDatagram at hs
        dsimp only at hs
        split at hs
        · cases hs; exact ih
        split at hs
        · cases hs
        obtain ⟨l, _, hs⟩ := Res.bind_eq_ok hs
        exact ih.all h hs
      | _ => exact absurd trivial hl

/-! ### How much is sent -/

/-- Whether the message is still to be sent for the first time. -/
def _root_.Verif.Stage.fresh : Stage → Nat
  | .passed .. => 1
  | _ => 0

theorem _root_.Verif.Next.fresh {id s e s'} (h : Next id s e s') (hg : s.good) {n1 t1 m} (hi : s'.info = some (n1, t1, m))
    (hm : m.isResponse = true) :
    s.info = some (n1, t1, m) ∧ (transmissions id [e]).length + s'.fresh ≤ s.fresh ∨
    s = .unseen ∧ (transmissions id [e]).length + s'.fresh ≤ 1 := by
  cases h
  case other ha =>
    obtain ⟨h1, _⟩ := not_about_obs ha
    exact .inl ⟨hi, by simp [h1]⟩
  all_goals simp_all [Stage.good, Stage.info, Stage.fresh, transmissions]

theorem _root_.Verif.Life.fresh {id log s} (h : Life id log s) {n1 t1 m} (hi : s.info = some (n1, t1, m)) (hm : m.isResponse = true) :
    (transmissions id log).length + s.fresh ≤ 1 := by
  induction h with
  | nil => cases hi
  | @cons l s e s' hl hn ih =>
    rw [transmissions_cons, List.length_append]
    rcases hn.fresh hl.tally.good hi hm with ⟨h1, h2⟩ | ⟨rfl, h2⟩
    · have := ih h1; omega
    · rw [hl.tally.unseen rfl]
      simpa using h2

/-- A response is sent at most once, other than as an answer to a repeated request. -/
theorem response_once {ep : Ep} (h : Reached ep) {id n1 t1 m} (hp : Event.passed id n1 t1 m ∈ ep.log) (hm : m.isResponse = true) :
    (transmissions id ep.log).length ≤ 1 := by
  obtain ⟨s, hl, ht, _⟩ := h.stage id
  have := hl.fresh ((ht.info n1 t1 m).mp hp) hm
  omega

/-- The transmissions of messages that were passed to osmo_pfcp_endpoint_tx(). -/
def txIds (log : List Event) : List Nat :=
  log.filterMap fun e => match e with
    | .send .tx i _ _ _ _ => some i
    | .send .retrans i _ _ _ _ => some i
    | _ => none

theorem txIds_count (id : Nat) (log : List Event) : (txIds log).count id = (transmissions id log).length := by
  induction log with
  | nil => rfl
  | cons e l ih =>
    have h1 : txIds (e :: l) = txIds [e] ++ txIds l := by simp only [txIds, ← List.filterMap_append, List.singleton_append]
    have h2 : transmissions id (e :: l) = transmissions id [e] ++ transmissions id l := by
      simp only [transmissions, ← List.filterMap_append, List.singleton_append]
    rw [h1, h2, List.count_append, List.length_append, ih]
    congr 1
    cases e with
    | send why i r o ok t =>
      cases why <;> simp only [txIds, transmissions, List.filterMap_cons, List.filterMap_nil, List.count_nil, List.length_nil]
      all_goals
        by_cases hi : i = id
        · simp [hi]
        · simp [hi]
    | _ => rfl

/-- The messages that were passed, with N1. -/
def passedNs (log : List Event) : List (Nat × Nat) :=
  log.filterMap fun e => match e with
    | .passed id n1 _ m => some (id, if m.isResponse then 0 else n1)
    | _ => none

theorem length_le_sum : ∀ (ps : List (Nat × Nat)) (l : List Nat), (∀ x ∈ l, ∃ n, (x, n) ∈ ps) →
    (∀ p ∈ ps, l.count p.1 ≤ 1 + p.2) → l.length ≤ (ps.map fun p => 1 + p.2).sum
  | [], l, h, _ => by
    cases l with
    | nil => simp
    | cons x l => obtain ⟨n, h⟩ := h x (.head _); cases h
  | p :: ps, l, h, hc => by
    have h1 : l.length = l.count p.1 + (l.filter (· ≠ p.1)).length := by
      clear h hc
      induction l with
      | nil => rfl
      | cons x l ih =>
        by_cases hx : x = p.1
        · subst hx; simp; simp at ih; omega
        · simp [hx]; simp at ih; omega
    have h2 := length_le_sum ps (l.filter (· ≠ p.1)) (fun x hx => by
        obtain ⟨hx, hne⟩ := List.mem_filter.1 hx
        obtain ⟨n, hn⟩ := h x hx
        rcases List.mem_cons.1 hn with rfl | hn
        · simp at hne
        · exact ⟨n, hn⟩) (fun q hq => Nat.le_trans (List.Sublist.count_le _ List.filter_sublist) (hc q (.tail _ hq)))
    have h3 := hc p (.head _)
    simp only [List.map_cons, List.sum_cons]
    omega

theorem txAllowance_eq (log : List Event) : txAllowance log = ((passedNs log).map fun p => 1 + p.2).sum := by
  unfold txAllowance
  induction log with
  | nil => rfl
  | cons e l ih =>
    rw [List.map_cons, List.sum_cons, ih]
    cases e <;> simp [passedNs]

/-- What kinds of datagrams there are. -/
theorem datagrams_split (log : List Event) :
    datagramsSent log = (txIds log).length + directSent log + (heartbeatReplies log).length + (cachedReplies log).length := by
  induction log with
  | nil => rfl
  | cons e l ih =>
    have hd : datagramsSent (e :: l) = datagramsSent [e] + datagramsSent l := by
      simp only [datagramsSent, ← List.countP_append, List.singleton_append]
    have hr : directSent (e :: l) = directSent [e] + directSent l := by
      simp only [directSent, ← List.countP_append, List.singleton_append]
    have h1 : txIds (e :: l) = txIds [e] ++ txIds l := by simp only [txIds, ← List.filterMap_append, List.singleton_append]
    have h2 : heartbeatReplies (e :: l) = heartbeatReplies [e] ++ heartbeatReplies l := by
      simp only [heartbeatReplies, ← List.filterMap_append, List.singleton_append]
    have h3 : cachedReplies (e :: l) = cachedReplies [e] ++ cachedReplies l := by
      simp only [cachedReplies, ← List.filterMap_append, List.singleton_append]
    rw [hd, hr, h1, h2, h3, List.length_append, List.length_append, List.length_append, ih]
    have : datagramsSent [e] = (txIds [e]).length + directSent [e] + (heartbeatReplies [e]).length + (cachedReplies [e]).length := by
      cases e with
      | send why i r o ok t => cases why <;> rfl
      | _ => rfl
    omega

/-- What one block sends. -/
theorem block_sends {c r log k m t} (h : RxBlock c r log k m t) :
    (heartbeatReplies t.reverse).length ≤ (if m.h.type = 1 then 1 else 0) ∧
    (cachedReplies t.reverse).length ≤ (if m.isResponse then 0 else 1) ∧ t.filterMap Event.rxMsg = [m] := by
  obtain ⟨hb, req, tail, h1, h2, rfl⟩ := h
  have hc : ∀ x : List Event, x = (if c then [.setCtx k req] else []) → heartbeatReplies x.reverse = [] ∧ cachedReplies x.reverse = [] ∧
      x.filterMap Event.rxMsg = [] := by
    intro x hx
    subst hx
    cases c <;> exact ⟨rfl, rfl, rfl⟩
  obtain ⟨c1, c2, c3⟩ := hc _ rfl
  have ha : (heartbeatReplies hb.reverse).length ≤ (if m.h.type = 1 then 1 else 0) ∧ cachedReplies hb.reverse = [] ∧
      hb.filterMap Event.rxMsg = [] := by
    rcases h1 with rfl | ⟨ht, id, ok, t, rfl⟩
    · exact ⟨Nat.zero_le _, rfl, rfl⟩
    · rw [if_pos ht]; exact ⟨Nat.le_refl _, rfl, rfl⟩
  have ht : heartbeatReplies tail.reverse = [] ∧ (cachedReplies tail.reverse).length ≤ (if m.isResponse then 0 else 1) ∧
      tail.filterMap Event.rxMsg = [] := by
    cases h2 with
    | fresh => exact ⟨rfl, Nat.zero_le _, rfl⟩
    | again ok t hm => rw [hm]; exact ⟨rfl, Nat.le_refl _, rfl⟩
    | told => exact ⟨rfl, Nat.zero_le _, rfl⟩
    | toldOn => exact ⟨rfl, Nat.zero_le _, rfl⟩
    | handed => exact ⟨rfl, Nat.zero_le _, rfl⟩
  obtain ⟨a1, a2, a3⟩ := ha
  obtain ⟨t1, t2, t3⟩ := ht
  refine ⟨?_, ?_, ?_⟩
  · simp only [heartbeatReplies] at *
    simp only [List.reverse_append, List.reverse_cons, List.cons_append, List.filterMap_append, List.length_append, t1, c1]
    simpa using a1
  · simp only [cachedReplies] at *
    simp only [List.reverse_append, List.reverse_cons, List.cons_append, List.filterMap_append, List.length_append, a2, c2]
    simpa using t2
  · simp [List.filterMap_append, Event.rxMsg, a3, c3, t3]

theorem heartbeatReplies_app (a b : List Event) : heartbeatReplies (a ++ b) = heartbeatReplies a ++ heartbeatReplies b := by
  simp only [heartbeatReplies, List.filterMap_append]

theorem cachedReplies_app (a b : List Event) : cachedReplies (a ++ b) = cachedReplies a ++ cachedReplies b := by
  simp only [cachedReplies, List.filterMap_append]

theorem blocks_send {c r log} : ∀ (bs : List (Nat × PMsg × List Event)), (∀ b ∈ bs, RxBlock c r log b.1 b.2.1 b.2.2) →
    (heartbeatReplies (bs.map (·.2.2)).flatten.reverse).length ≤
      (((bs.map (·.2.2)).flatten.filterMap Event.rxMsg).filter (·.h.type = 1)).length ∧
    (cachedReplies (bs.map (·.2.2)).flatten.reverse).length ≤
      (((bs.map (·.2.2)).flatten.filterMap Event.rxMsg).filter (!·.isResponse)).length
  | [], _ => ⟨Nat.zero_le _, Nat.zero_le _⟩
  | b :: bs, h => by
    obtain ⟨h1, h2⟩ := blocks_send bs fun x hx => h x (.tail _ hx)
    obtain ⟨b1, b2, b3⟩ := block_sends (h b (.head _))
    rw [List.map_cons, List.flatten_cons, List.reverse_append, heartbeatReplies_app, cachedReplies_app, List.filterMap_append, b3,
      List.filter_append, List.filter_append, List.length_append, List.length_append, List.length_append, List.length_append]
    have f1 : ([b.2.1].filter (·.h.type = 1)).length = if b.2.1.h.type = 1 then 1 else 0 := by
      by_cases ht : b.2.1.h.type = 1 <;> simp [ht]
    have f2 : ([b.2.1].filter (!·.isResponse)).length = if b.2.1.isResponse then 0 else 1 := by
      cases ht : b.2.1.isResponse <;> simp [ht]
    rw [f1, f2]
    omega

/-- C117: an endpoint does not amplify.  In every history, the number of datagrams that it has sent is at most: 1 + N1 for each request that the
application (or a CP peer) has passed to osmo_pfcp_endpoint_tx(), one for each response, one for each message that the application has sent directly, one for
each Heartbeat Request received, and one for each request received. -/
theorem C117_no_amplification {ep : Ep} (h : Reached ep) :
    datagramsSent ep.log ≤ txAllowance ep.log + directSent ep.log +
      ((receivedMsgs ep.log).filter (·.h.type = 1)).length + ((receivedMsgs ep.log).filter (!·.isResponse)).length := by
  have h1 : (txIds ep.log).length ≤ txAllowance ep.log := by
    rw [txAllowance_eq]
    refine length_le_sum _ _ ?_ ?_
    · intro x hx
      obtain ⟨s, hl, ht, _⟩ := h.stage x
      have hne : transmissions x ep.log ≠ [] := by
        intro he
        have := txIds_count x ep.log
        rw [he] at this
        exact absurd hx (List.count_eq_zero.1 this)
      cases hi : s.info with
      | none =>
        have : s = .unseen := by cases s <;> first | rfl | simp [Stage.info] at hi
        exact absurd (ht.unseen this) hne
      | some i =>
        obtain ⟨n1, t1, m⟩ := i
        exact ⟨if m.isResponse then 0 else n1, List.mem_filterMap.2 ⟨_, (ht.info n1 t1 m).mpr hi, rfl⟩⟩
    · intro p hp
      obtain ⟨e, he, hpe⟩ := List.mem_filterMap.1 hp
      rw [txIds_count]
      cases e with
      | passed id n1 t1 m =>
        cases hpe
        dsimp only
        split
        · rename_i hm; exact response_once h he hm
        · exact (C46_bounded_identical h he).1
      | _ => cases hpe
  obtain ⟨bs, b1, b2, b3⟩ := C117_trace h
  obtain ⟨s1, s2⟩ := blocks_send bs b3
  rw [← b1] at s1 s2
  rw [← heartbeatReplies_rxEvents] at s1
  rw [← cachedReplies_rxEvents] at s2
  rw [datagrams_split]
  unfold receivedMsgs
  omega

/-- What kind of event, and of which message. -/
def eventName : Event → Nat × Nat
  | .received k _ => (0, k)
  | .send (.heartbeatReply k) .. => (1, k)
  | .send (.cachedReply k) .. => (2, k)
  | .respCb _ (some k) _ => (3, k)
  | .setCtx k _ => (4, k)
  | .dispatch k _ => (5, k)
  | _ => (9, 0)

/-- A request with a retransmission; its response; a Heartbeat Request, which the application answers, too; the same request again. -/
def exBusy : List Op := exSend ++ exTimer ++ exResp ++ [.rx exRemote exOctets [], .app (.tx exAnswer true .done .done), .rx exRemote exOctets []]

-- The request that is received again is answered twice: by the automatic answer, and by the one that is kept.  This is what the bound counts.
example : (match exec exBusy exEp with
    | .ok ep => some ((rxEvents ep.log).map eventName, datagramsSent ep.log, txAllowance ep.log, directSent ep.log,
        ((receivedMsgs ep.log).filter (·.h.type = 1)).length, ((receivedMsgs ep.log).filter (!·.isResponse)).length)
    | _ => none) =
    some ([(0, 1), (4, 1), (3, 1), (0, 2), (1, 2), (4, 2), (5, 2), (0, 5), (1, 5), (4, 5), (2, 5)], 6, 4, 0, 2, 2) := by
  decide +kernel

end Verif.Props
