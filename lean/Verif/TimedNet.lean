/-
Networks with time: what holds in all of their states.
-/
import Verif.TimedLemmas

namespace Verif
open Spec Props

theorem advance_step (ep : Ep) (ms : Nat) : Op.step (.advance ms) ep = .ok { ep with now := ep.now + ms } := rfl

theorem TimedReached.net {D B} {w : Net} (h : TimedReached D B w) : NetReached w := by
  induction h with
  | start w hw => exact .start w hw
  | «local» a op _ hl _ hs ih => exact .step ih (.local a op hl hs)
  | advance a ms _ _ ih => exact .step ih (.local a (.advance ms) trivial (advance_step _ ms))
  | deliver s r rs _ hs _ _ hr _ _ ih => exact .step ih (.deliver s r rs hs hr)

theorem TimedReached.punctual {D B} {w : Net} (h : TimedReached D B w) (a : Sockaddr) : Punctual (w a) := by
  have set : ∀ {w : Net} {b : Sockaddr} {ep : Ep}, Punctual (w a) → (a = b → Punctual ep) → Punctual (w.set b ep a) := by
    intro w b ep h1 h2
    by_cases hb : a = b
    · subst hb; rw [Net.set_same]; exact h2 rfl
    · rw [Net.set_other _ _ hb]; exact h1
  induction h with
  | start w hw =>
    obtain ⟨_, _, _, _, _, _, h⟩ := hw a
    rw [h]; exact .create ..
  | «local» b op _ _ ha hs ih => exact set ih fun hb => by subst hb; exact .op op ih ha hs
  | advance b ms _ hd ih => exact set ih fun hb => by subst hb; exact .advance ms ih hd
  | deliver s r rs _ _ _ _ hr _ _ ih =>
    exact set ih fun hb => by subst hb; exact .op (.rx s _ rs) ih (fun _ h => by cases h) hr

/-- One step of a network with time, at one endpoint. -/
theorem set_onward {w : Net} {b : Sockaddr} {ep : Ep} (h : Onward (w b) ep) (a : Sockaddr) : Onward (w a) (w.set b ep a) := by
  by_cases hb : a = b
  · subst hb; rw [Net.set_same]; exact h
  · rw [Net.set_other _ _ hb]; exact .refl _

theorem Onward.mem {ep ep' : Ep} (h : Onward ep ep') {e} (he : e ∈ ep.log) : e ∈ ep'.log := by
  obtain ⟨l, hl, _⟩ := h.log
  rw [hl]; exact List.mem_append_right _ he

theorem Onward.times {ep ep' : Ep} (h : Onward ep ep') {id t} (ht : t ∈ sentTimes id ep.log) : t ∈ sentTimes id ep'.log := by
  obtain ⟨l, hl, _⟩ := h.log
  rw [hl]
  unfold sentTimes
  rw [List.filterMap_append]
  exact List.mem_append_right _ ht

theorem Onward.fresh {ep ep' : Ep} (h : Onward ep ep') (hf : ep'.freshSeqs) : ep.freshSeqs := by
  have h1 := h.draws
  have h2 := h.resets
  obtain ⟨f1, f2⟩ := hf
  exact ⟨by omega, by omega⟩

theorem Proper.before {w w' : Net} (h : ∀ a, Onward (w a) (w' a)) (hp : Proper w') : Proper w :=
  ⟨fun a id n1 t1 m hm => hp.sendable a id n1 t1 m ((h a).mem hm), fun a id r o ok t hm => hp.noDirect a id r o ok t ((h a).mem hm)⟩

/-! ### Transmissions -/

theorem mem_sentTimes {id : Nat} {log : List Event} {t : Nat} :
    t ∈ sentTimes id log ↔ ∃ r o, Event.send .tx id r o true t ∈ log ∨ Event.send .retrans id r o true t ∈ log := by
  unfold sentTimes
  rw [List.mem_filterMap]
  constructor
  · rintro ⟨e, he, ht⟩
    unfold Event.sentAt at ht
    split at ht
    · split at ht
      · rename_i hi; subst hi; cases ht; exact ⟨_, _, .inl he⟩
      · cases ht
    · split at ht
      · rename_i hi; subst hi; cases ht; exact ⟨_, _, .inr he⟩
      · cases ht
    · cases ht
  · rintro ⟨r, o, h | h⟩
    · exact ⟨_, h, by simp [Event.sentAt]⟩
    · exact ⟨_, h, by simp [Event.sentAt]⟩

/-- All transmissions of a request are within N1 times T1. -/
theorem Punctual.window {ep : Ep} (h : Punctual ep) {v id n1 t1 m} (hv : ∀ a b c, Event.config a b c ∈ ep.log → b = v)
    (hm : Event.passed id n1 t1 m ∈ ep.log) {t t'} (ht : t ∈ sentTimes id ep.log) (ht' : t' ∈ sentTimes id ep.log) :
    t' ≤ t + n1 * v := by
  obtain ⟨s, h1, h2, _⟩ := h.reached.stage id
  have hroom := h2.room n1 t1 m ((h2.info _ _ _).1 hm)
  have hle := sentTimes_le id ep.log
  obtain ⟨l, a, b, c, hl⟩ := h.reached.begins
  have ht0 := h.timeInv.events
  dsimp only at ht0
  rw [hl] at h1 ht0 hv ht ht' hle hroom
  obtain ⟨⟨t0, hr⟩, _⟩ := sentTimes_regular h1 ht0 hv
  generalize hn : (sentTimes id (l ++ [Event.config a b c])).length = n at *
  rw [hr] at ht ht'
  simp only [List.mem_map, List.mem_reverse, List.mem_range] at ht ht'
  obtain ⟨i, hi, rfl⟩ := ht
  obtain ⟨j, hj, rfl⟩ := ht'
  have : j * v ≤ n1 * v := Nat.mul_le_mul_right _ (by omega)
  omega

/-- The time of the only transmission of a response. -/
theorem Reached.answered {ep : Ep} (h : Reached ep) {id n1 t1 m} (hm : Event.passed id n1 t1 m ∈ ep.log)
    (hr : m.isResponse = true) (hret : Event.returned id none ∈ ep.log) : ∃ t, t ∈ sentTimes id ep.log := by
  obtain ⟨s, h1, _⟩ := h.stage id
  have hq : ∀ {l s}, Life id l s → ∀ n1 t1 m o, s = .sent n1 t1 m o → ∃ r t, Event.send .tx id r o true t ∈ l := by
    intro l s hl
    induction hl with
    | nil => intro _ _ _ _ h; cases h
    | cons hl hn ih =>
      intro n1 t1 m o hs
      subst hs
      cases hn
      case other => obtain ⟨r, t, h⟩ := ih _ _ _ _ rfl; exact ⟨r, t, .tail _ h⟩
      case send => exact ⟨_, _, .head _⟩
  have hq2 : ∀ {l s}, Life id l s → ∀ n1 t1 m, s = .reported n1 t1 m true → m.isResponse = false := by
    intro l s hl n1 t1 m hs
    have := hl.tally.good
    rw [hs] at this
    have := this.1
    simp [PMsg.wantsCb] at this
    exact this.1
  obtain ⟨l2, l1, hl⟩ := List.append_of_mem hret
  rw [hl] at h1
  obtain ⟨s0, s1, h2, hn⟩ := Life.split h1
  have sub : ∀ {e}, e ∈ l1 → e ∈ ep.log := fun he => by rw [hl]; exact List.mem_append_right _ (.tail _ he)
  have same : ∀ {n1' t1' m'}, s0.info = some (n1', t1', m') → m' = m := by
    intro n1' t1' m' hi
    have h3 := (h2.tally.info n1' t1' m').2 hi
    obtain ⟨s, _, h4, _⟩ := h.stage id
    have := ((h4.info _ _ _).1 (sub h3)).symm.trans ((h4.info _ _ _).1 hm)
    simp only [Option.some.injEq, Prod.mk.injEq] at this
    exact this.2.2
  have fin : ∀ {n1' t1' m' o}, s0 = .sent n1' t1' m' o → ∃ t, t ∈ sentTimes id ep.log := by
    intro n1' t1' m' o hs
    obtain ⟨r, t, h⟩ := hq h2 _ _ _ _ hs
    exact ⟨t, mem_sentTimes.2 ⟨r, o, .inl (sub h)⟩⟩
  cases hn
  case other ha => exact absurd rfl ha
  case queueReq => exact fin rfl
  case queueResp => exact fin rfl
  case noQueue => exact fin rfl
  case noQueueReported n1' t1' m' =>
    have := hq2 h2 _ _ _ rfl
    rw [same rfl, hr] at this
    cases this

/-- A response is not retransmitted by itself: there is at most one time. -/
theorem Reached.answered_once {ep : Ep} (h : Reached ep) {id n1 t1 m} (hm : Event.passed id n1 t1 m ∈ ep.log)
    (hr : m.isResponse = true) {t t'} (ht : t ∈ sentTimes id ep.log) (ht' : t' ∈ sentTimes id ep.log) : t' = t := by
  obtain ⟨s, h1, h2, _⟩ := h.stage id
  have hinfo := (h2.info _ _ _).1 hm
  clear h2
  suffices hs : ∀ {l s}, Life id l s → ∀ n1 t1 m, s.info = some (n1, t1, m) → m.isResponse = true → (sentTimes id l).length ≤ 1 by
    have := hs h1 _ _ _ hinfo hr
    match hx : sentTimes id ep.log, this with
    | [], _ => rw [hx] at ht; cases ht
    | [x], _ =>
      rw [hx] at ht ht'
      rw [List.mem_singleton.1 ht, List.mem_singleton.1 ht']
    | _ :: _ :: _, h => simp at h
  intro l s hl
  induction hl with
  | nil => intro _ _ _ h; cases h
  | @cons l s e s' hl hn ih =>
    intro n1 t1 m hi hr
    rw [sentTimes_cons, List.length_append]
    have hg := hl.tally.good
    cases hn
    case other ha => rw [sentAt_not_about ha]; simpa using ih _ _ _ hi hr
    case send n1' t1' m' o t ho =>
      have := hl.exact rfl rfl
      have h2 := sentTimes_le id l
      simp only [Stage.room] at this
      simp [Event.sentAt]
      omega
    case retrans =>
      cases hi
      rw [hg.2.1] at hr
      cases hr
    case pass => 
      have := hl.tally.unseen rfl
      have h2 := sentTimes_le id l
      rw [this] at h2
      simp at h2
      simp [h2, Event.sentAt]
    all_goals
      simp only [Event.sentAt, Option.toList_none, List.length_nil, Nat.zero_add]
      exact ih _ _ _ hi hr

/-! ### Arrivals -/

/-- What the arrival of a datagram of a proper application is: nothing, if the socket is closed, or one message; if this is a
request (not a heartbeat), then it was sent, at this time, for a request that was passed. -/
theorem NetReached.arrival {w : Net} (h : NetReached w) (hp : Proper w) {s r why id o t rs ep'}
    (hs : Event.send why id r o true t ∈ (w s).log) (hr : (w r).rxDatagram s o rs = .ok ep') :
    ep' = w r ∨ ∃ x, x.remote = s ∧ (w r).handleRx x (rs.headD {}) = .ok ep' ∧
      (x.isResponse = false → x.h.type ≠ 1 → ∃ n1 t1 m, Event.passed id n1 t1 m ∈ (w s).log ∧ m.isResponse = false ∧
        m.remote = r ∧ m.h = x.h ∧ t ∈ sentTimes id (w s).log) := by
  cases hsock : (w r).sock with
  | false =>
    unfold Ep.rxDatagram at hr
    dsimp only at hr
    rw [if_pos (.inl (by simp [hsock]))] at hr
    cases hr
    exact .inl rfl
  | true =>
  right
  have hrch := h.reached s
  have about : About id (.send why id r o true t) → (why = .tx ∨ why = .retrans ∨ ∃ k, why = .cachedReply k) →
      ∃ x, x.remote = s ∧ (w r).handleRx x (rs.headD {}) = .ok ep' ∧
      (x.isResponse = false → x.h.type ≠ 1 → ∃ n1 t1 m, Event.passed id n1 t1 m ∈ (w s).log ∧ m.isResponse = false ∧
        m.remote = r ∧ m.h = x.h ∧ t ∈ sentTimes id (w s).log) := by
    intro ha hw
    obtain ⟨st, h1, h2, h3⟩ := hrch.inv.life id
    obtain ⟨n1, t1, m, h4, h5, h6⟩ := Life.sends h1 hs ha
    obtain ⟨x, x1, x2, x3, x4, x5⟩ := h.arrives hp h4 h6 hsock hr
    refine ⟨x, x1, x5, fun hx _ => ⟨n1, t1, m, h4, by rw [← x4, hx], h5, x2.symm, ?_⟩⟩
    rcases hw with rfl | rfl | ⟨k, rfl⟩
    · exact mem_sentTimes.2 ⟨_, _, .inl hs⟩
    · exact mem_sentTimes.2 ⟨_, _, .inr hs⟩
    · obtain ⟨rx, n1', t1', m', g1, g2, g3, g4, g5⟩ := hrch.refInv.ev _ hs
      have := ((h1.tally.info _ _ _).1 g2).symm.trans ((h1.tally.info _ _ _).1 h4)
      simp only [Option.some.injEq, Prod.mk.injEq] at this
      rw [this.2.2, ← x4, hx] at g4
      cases g4
  have beat : ∀ {m : Hdr × Struct IeVal}, GoodMsg m → o = bundle [m] → o.length < 2048 → (m.1.type = 1 ∨ m.1.type = 2) →
      ∃ x, x.remote = s ∧ (w r).handleRx x (rs.headD {}) = .ok ep' ∧
      (x.isResponse = false → x.h.type ≠ 1 → ∃ n1 t1 m, Event.passed id n1 t1 m ∈ (w s).log ∧ m.isResponse = false ∧
        m.remote = r ∧ m.h = x.h ∧ t ∈ sentTimes id (w s).log) := by
    intro m hg ho hl ht
    subst ho
    obtain ⟨x, x1, x2, x3, x4, x5⟩ := rxDatagram_single (h.reached r) hsock hg hl hr
    refine ⟨x, x1, x5, fun hx hx1 => ?_⟩
    rw [x2] at x4 hx1
    rcases ht with ht | ht
    · exact absurd ht hx1
    · rw [ht, hx] at x4
      exact absurd (x4.2 (by decide)) (by simp)
  cases why with
  | tx => exact about rfl (.inl rfl)
  | retrans => exact about rfl (.inr (.inl rfl))
  | cachedReply j => exact about rfl (.inr (.inr ⟨j, rfl⟩))
  | direct => exact absurd hs (hp.noDirect _ _ _ _ _ _)
  | heartbeatReq =>
    obtain ⟨q, h1, h2, h3⟩ := hrch.beats _ hs
    obtain ⟨g1, g2⟩ := heartbeat_bundle 1 (.inl rfl) q (w s).rts h2 hrch.rts_lt
    exact beat g1 (by rw [g2, h3]; rfl) (by rw [h3]; simp [heartbeatReqOctets]) (.inl rfl)
  | heartbeatReply j =>
    obtain ⟨y, h1, h2, h3, h4⟩ := hrch.beats _ hs
    obtain ⟨_, _, _, _, _, hf'⟩ := h.received h1
    obtain ⟨g1, g2⟩ := heartbeat_bundle 2 (.inr rfl) y.h.seq (w s).rts hf'.seq hrch.rts_lt
    exact beat g1 (by rw [g2, h4]; rfl) (by rw [h4]; simp [heartbeatRespOctets]) (.inr rfl)

/-- A message that is passed was not sent before. -/
theorem Reached.newPassed {ep : Ep} (h : Reached ep) {l l0} (hl : ep.log = l ++ l0) {id n1 t1 m}
    (hp : Event.passed id n1 t1 m ∈ l) (t) : t ∉ List.filterMap (Event.sentAt id) l0 := by
  obtain ⟨l2, l1, hl'⟩ := List.append_of_mem hp
  obtain ⟨s, h1, _⟩ := h.stage id
  rw [hl, hl', List.append_assoc, List.cons_append] at h1
  obtain ⟨s0, s1, h2, hn⟩ := Life.split h1
  have : s0 = .unseen := by
    cases hn
    case other ha => exact absurd rfl ha
    case pass => rfl
  subst this
  intro ht
  obtain ⟨e, he, ht⟩ := List.mem_filterMap.1 ht
  rw [sentAt_not_about (h2.unseen_about e (List.mem_append_right _ he))] at ht
  cases ht

/-! ### Answers -/

/-- A request (not a heartbeat) that rx_msg_cb() got at `b`: when it was sent, and that it was answered, not before. -/
def AnsweredAt (w : Net) (b : Sockaddr) (y : PMsg) : Prop :=
  ∃ i n1 t1 m t id n1' t1' resp τ, Event.passed i n1 t1 m ∈ (w y.remote).log ∧ m.isResponse = false ∧ m.h = y.h ∧
    t ∈ sentTimes i (w y.remote).log ∧ Event.passed id n1' t1' resp ∈ (w b).log ∧ resp.isResponse = true ∧
    resp.h.seq = y.h.seq ∧ τ ∈ sentTimes id (w b).log ∧ t ≤ τ

theorem AnsweredAt.onward {w w' : Net} (h : ∀ a, Onward (w a) (w' a)) {b y} (hy : AnsweredAt w b y) : AnsweredAt w' b y := by
  obtain ⟨i, n1, t1, m, t, id, n1', t1', resp, τ, g1, g2, g3, g4, g5, g6, g7, g8, g9⟩ := hy
  exact ⟨i, n1, t1, m, t, id, n1', t1', resp, τ, (h _).mem g1, g2, g3, (h _).times g4, (h _).mem g5, g6, g7, (h _).times g8, g9⟩

/-- Nothing of the reception of messages is new at one endpoint. -/
theorem local_rx {w : Net} {a : Sockaddr} {op : Op} {ep'} (hl : op.isLocal) (hs : op.step (w a) = .ok ep') {b e}
    (he : e ∈ (w.set a ep' b).log) (hx : isRx e = true) : e ∈ (w b).log := by
  by_cases hb : b = a
  · subst hb
    rw [Net.set_same] at he
    obtain ⟨l, h1, h2⟩ := Op.local_log hl hs
    rw [h1] at he
    rcases List.mem_append.1 he with he | he
    · rw [h2 _ he] at hx; cases hx
    · exact he
  · rw [Net.set_other _ _ hb] at he; exact he

theorem TimedReached.answered {D B} {w : Net} (h : TimedReached D B w) (hp : Proper w) {b k y} (hB : B b)
    (hy : Event.received k y ∈ (w b).log) (hd : Event.dispatch k none ∈ (w b).log) (hr : y.isResponse = false)
    (ht : y.h.type ≠ 1) : AnsweredAt w b y := by
  induction h with
  | start w hw =>
    obtain ⟨_, _, _, _, _, _, h⟩ := hw b
    rw [h] at hy
    cases List.mem_singleton.1 hy
  | @«local» w a op ep' hw hl hna hs ih =>
    have on := set_onward (w := w) (Op.onward (hw.net.reached a) hs)
    exact (ih (hp.before on) (local_rx hl hs hy rfl) (local_rx hl hs hd rfl)).onward on
  | @advance w a ms hw hdue ih =>
    have on := set_onward (w := w) (Op.onward (hw.net.reached a) (advance_step _ ms))
    exact (ih (hp.before on) (local_rx (op := .advance ms) trivial (advance_step _ ms) hy rfl)
      (local_rx (op := .advance ms) trivial (advance_step _ ms) hd rfl)).onward on
  | @deliver w s r why id o t l rs ep' hw hs ht1 ht2 hrx hl hans ih =>
    have on := set_onward (w := w) (Op.onward (op := .rx s o rs) (hw.net.reached r) hrx)
    by_cases hb : b = r
    · subst hb
      have onb := on b
      rw [Net.set_same] at hy hd onb
      rw [hl] at hy hd
      have num := (hw.net.reached b).numbered
      rcases hw.net.arrival (hp.before on) hs hrx with hx | ⟨x, x1, x2, x3⟩
      · have : l = [] := by
          rw [hx] at hl
          simpa using hl
        subst this
        exact (ih (hp.before on) hy hd).onward on
      · obtain ⟨l', hl', n1, n2, n3⟩ := (hw.net.reached b).rxNew x2
        cases List.append_cancel_right (hl'.symm.trans hl)
        rcases List.mem_append.1 hy with hy | hy <;> rcases List.mem_append.1 hd with hd | hd
        · obtain ⟨rfl, rfl⟩ := n2 _ _ hy
          obtain ⟨i1, i2, m, g1, g2, g3, g4, g5⟩ := x3 hr ht
          obtain ⟨id', j1, j2, resp, p1, p2, p3, p4⟩ := hans hB _ _ hy hd hr ht
          have reach : Reached ep' := (hw.net.reached b).rx _ _ x2
          obtain ⟨τ, hτ⟩ := reach.answered (by rw [hl]; exact List.mem_append_left _ p1) p2 (by rw [hl]; exact List.mem_append_left _ p4)
          have late : t ≤ τ := by
            obtain ⟨l2, hl2, hl3⟩ := onb.log
            cases List.append_cancel_right (hl2.symm.trans hl)
            rw [hl2] at hτ
            unfold sentTimes at hτ
            rw [List.filterMap_append] at hτ
            rcases List.mem_append.1 hτ with hτ | hτ
            · obtain ⟨e, he, hτ⟩ := List.mem_filterMap.1 hτ
              exact Nat.le_trans ht1 (hl3 e he _ _ hτ)
            · exact absurd hτ (reach.newPassed hl p1 τ)
          exact ⟨id, i1, i2, m, t, id', j1, j2, resp, τ, (on _).mem (by rw [x1]; exact g1), g2, g4, (on _).times (by rw [x1]; exact g5),
            by rw [Net.set_same, hl]; exact List.mem_append_left _ p1, p2, p3, by rw [Net.set_same]; exact hτ, late⟩
        · obtain ⟨rfl, rfl⟩ := n2 _ _ hy
          obtain ⟨y', hy'⟩ := num.dispatched _ _ hd
          exact absurd (num.lt _ _ hy') (Nat.lt_irrefl _)
        · have := n3 _ _ hd
          have h2 := num.lt _ _ hy
          omega
        · exact (ih (hp.before on) hy hd).onward on
    · have on' := on
      rw [Net.set_other _ _ hb] at hy hd
      exact (ih (hp.before on) hy hd).onward on

end Verif
