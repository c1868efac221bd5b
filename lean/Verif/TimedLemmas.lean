/-
Lemmas about networks with time.
-/
import Verif.SpecTimed
import Verif.NetLemmas
import Verif.PropsEndpoint5

namespace Verif
open Spec Props

/-! ### What a small step does to clock, numbers and log -/

/-- The state grows: numbers and the clock do not go back, what is logged is new; transmissions are logged with the time. -/
structure Onward (ep ep' : Ep) : Prop where
  now : ep.now ≤ ep'.now
  next : ep.nextId ≤ ep'.nextId
  draws : ep.draws ≤ ep'.draws
  resets : ep.resets ≤ ep'.resets
  log : ∃ l, ep'.log = l ++ ep.log ∧ ∀ e ∈ l, ∀ id t, e.sentAt id = some t → ep.now ≤ t

theorem Onward.refl (ep : Ep) : Onward ep ep := ⟨Nat.le_refl _, Nat.le_refl _, Nat.le_refl _, Nat.le_refl _, [], rfl, by simp⟩

theorem Onward.trans {a b c : Ep} (h : Onward a b) (h' : Onward b c) : Onward a c := by
  obtain ⟨l, h1, h2⟩ := h.log
  obtain ⟨l', h3, h4⟩ := h'.log
  refine ⟨Nat.le_trans h.now h'.now, Nat.le_trans h.next h'.next, Nat.le_trans h.draws h'.draws,
    Nat.le_trans h.resets h'.resets, l' ++ l,
    by rw [h3, h1, List.append_assoc], ?_⟩
  intro e hm id t ht
  rcases List.mem_append.1 hm with hm | hm
  · exact Nat.le_trans h.now (h4 _ hm _ _ ht)
  · exact h2 _ hm _ _ ht

theorem sentAt_time {why i r o ok t id t'} (h : (Event.send why i r o ok t).sentAt id = some t') : t' = t := by
  unfold Event.sentAt at h
  split at h
  · rename_i hx; cases hx; split at h <;> cases h; rfl
  · rename_i hx; cases hx; split at h <;> cases h; rfl
  · cases h

theorem Refused.sendTime {ep : Ep} {why id m l} (h : Refused ep why id m l) :
    ∀ e ∈ l, ∀ id t, e.sentAt id = some t → ep.now ≤ t := by
  intro e he i t ht
  rw [(h.notSent i e he).1] at ht
  cases ht

theorem Micro.sendTime {a b : Ep × Ph} (h : Micro a b) :
    a.1.now ≤ b.1.now ∧ ∃ l, b.1.log = l ++ a.1.log ∧ ∀ e ∈ l, ∀ id t, e.sentAt id = some t → a.1.now ≤ t := by
  have bnow : ∀ (ep : Ep) (m : PMsg), (ep.begun m).now = ep.now := by
    intro ep m
    unfold Ep.begun
    split <;> rfl
  have sent : ∀ {why i r o ok t id t'}, (Event.send why i r o ok t).sentAt id = some t' → t ≤ t' :=
    fun h => Nat.le_of_eq (sentAt_time h).symm
  cases h
  case txQueued ep ph m o _ _ _ =>
    refine ⟨?_, [.returned ep.nextId none, .send .tx ep.nextId (ep.outgoing m).remote o true ep.now,
      .passed ep.nextId ep.n1 ep.t1 (ep.outgoing m)], ?_, ?_⟩
    · simp only [Ep.logs, Ep.enqueue]
      split <;> exact Nat.le_of_eq (bnow ep m).symm
    · simp only [Ep.logs, Ep.enqueue]
      split <;> simp only [begun_log]
    · intro e he id t ht
      simp only [List.mem_cons, List.not_mem_nil, or_false] at he
      rcases he with rfl | rfl | rfl
      · cases ht
      · exact sent ht
      · cases ht
  case txLost ep ph m e l h1 h2 =>
    refine ⟨Nat.le_of_eq (bnow ep m).symm, _, by simp only [Ep.logs, begun_log]; rfl, ?_⟩
    intro x hx id t ht
    simp only [List.mem_append, List.mem_cons, List.not_mem_nil, or_false] at hx
    rcases hx with ((rfl | rfl) | hx) | rfl
    · cases ht
    · cases ht
    · exact h2.sendTime _ hx _ _ ht
    · cases ht
  case txLostCb ep ph m l h1 h2 h3 =>
    refine ⟨Nat.le_of_eq (bnow ep m).symm, _, by simp only [Ep.logs, begun_log]; rfl, ?_⟩
    intro x hx id t ht
    simp only [List.mem_append, List.mem_cons, List.not_mem_nil, or_false] at hx
    rcases hx with (rfl | hx) | rfl
    · cases ht
    · exact h3.sendTime _ hx _ _ ht
    · cases ht
  case txUnq ep ph m o _ _ _ _ =>
    refine ⟨Nat.le_of_eq (bnow ep m).symm, _, by simp only [Ep.logs, begun_log]; rfl, ?_⟩
    intro e he id t ht
    simp only [List.mem_cons, List.not_mem_nil, or_false] at he
    rcases he with rfl | rfl | rfl
    · cases ht
    · exact sent ht
    · cases ht
  case txUnqCb ep ph m o _ _ _ _ _ =>
    refine ⟨Nat.le_of_eq (bnow ep m).symm, _, by simp only [Ep.logs, begun_log]; rfl, ?_⟩
    intro e he id t ht
    simp only [List.mem_cons, List.not_mem_nil, or_false] at he
    rcases he with rfl | rfl | rfl
    · cases ht
    · exact sent ht
    · cases ht
  case close ep ph hn =>
    refine ⟨Nat.le_refl _, _, rfl, ?_⟩
    intro e he id t ht
    simp only [List.mem_reverse, List.mem_flatten, List.mem_map] at he
    obtain ⟨_, ⟨x, _, rfl⟩, he⟩ := he
    simp only [List.mem_cons, List.not_mem_nil, or_false] at he
    rcases he with rfl | rfl <;> cases ht
  case timeout ep e l _ _ _ _ _ h6 =>
    refine ⟨Nat.le_refl _, .freed e.id :: l, rfl, ?_⟩
    intro x hx id t ht
    rcases List.mem_cons.1 hx with rfl | hx
    · cases ht
    rcases h6 with ⟨_, rfl⟩ | ⟨_, h6⟩
    · cases hx
    · exact h6.sendTime _ hx _ _ ht
  case timeoutCb ep e e' l _ _ _ _ _ h6 _ _ _ _ _ _ =>
    refine ⟨Nat.le_refl _, .respCb e.id none ep.now :: l, rfl, ?_⟩
    intro x hx id t ht
    rcases List.mem_cons.1 hx with rfl | hx
    · cases ht
    rcases h6 with ⟨_, rfl⟩ | ⟨_, h6⟩
    · cases hx
    · exact h6.sendTime _ hx _ _ ht
  case resend ep k e l m' _ _ _ _ h5 =>
    refine ⟨Nat.le_refl _, l, rfl, ?_⟩
    rcases h5 with ⟨rfl, _⟩ | ⟨o, ok, _, rfl⟩
    · simp
    · intro x hx id t ht
      cases List.mem_singleton.1 hx
      exact sent ht
  case quiet e hq =>
    refine ⟨Nat.le_refl _, [e], rfl, ?_⟩
    intro x hx id t ht
    cases List.mem_singleton.1 hx
    rw [(hq.notSent id).1] at ht
    cases ht
  case heartbeat l hl =>
    refine ⟨Nat.le_refl _, l, rfl, ?_⟩
    rcases hl with rfl | ⟨o, ok, _, rfl⟩
    · simp
    · intro x hx id t ht
      cases List.mem_singleton.1 hx
      exact sent ht
  case replied =>
    refine ⟨Nat.le_refl _, [_], rfl, ?_⟩
    intro x hx id t ht
    cases List.mem_singleton.1 hx
    exact sent ht
  case retrans =>
    refine ⟨Nat.le_refl _, [_], rfl, ?_⟩
    intro x hx id t ht
    cases List.mem_singleton.1 hx
    exact sent ht
  case txLostEnd =>
    refine ⟨Nat.le_refl _, [_, _], rfl, ?_⟩
    intro x hx id t ht
    simp only [List.mem_cons, List.not_mem_nil, or_false] at hx
    rcases hx with rfl | rfl <;> cases ht
  case advance => exact ⟨Nat.le_add_right _ _, [], rfl, by simp⟩
  case txUnqEnd => exact ⟨Nat.le_refl _, [_], rfl, fun x hx id t ht => by cases List.mem_singleton.1 hx; cases ht⟩
  case expire => exact ⟨Nat.le_refl _, [_], rfl, fun x hx id t ht => by cases List.mem_singleton.1 hx; cases ht⟩
  case setTimers => exact ⟨Nat.le_refl _, [_], rfl, fun x hx id t ht => by cases List.mem_singleton.1 hx; cases ht⟩
  case complete => exact ⟨Nat.le_refl _, [_], rfl, fun x hx id t ht => by cases List.mem_singleton.1 hx; cases ht⟩
  case matched => exact ⟨Nat.le_refl _, [_], rfl, fun x hx id t ht => by cases List.mem_singleton.1 hx; cases ht⟩
  case called => exact ⟨Nat.le_refl _, [_], rfl, fun x hx id t ht => by cases List.mem_singleton.1 hx; cases ht⟩
  case dispatched => exact ⟨Nat.le_refl _, [_], rfl, fun x hx id t ht => by cases List.mem_singleton.1 hx; cases ht⟩
  all_goals exact ⟨Nat.le_refl _, [], rfl, by simp⟩

theorem Micro.onward {a b : Ep × Ph} (h : Micro a b) : Onward a.1 b.1 := by
  obtain ⟨h1, h2, _⟩ := h.requests
  obtain ⟨h3, h4⟩ := h.sendTime
  refine ⟨h3, h2, ?_, ?_, h4⟩
  · cases h1 <;> omega
  · cases h1 <;> omega

theorem Steps.onward {a b : Ep × Ph} (h : Steps a b) : Onward a.1 b.1 := by
  induction h with
  | refl => exact .refl _
  | snoc _ hm ih => exact ih.trans hm.onward

theorem Tops.onward {a b : Ep} (h : Tops a b) (hb : a.busy = []) : Onward a b := (h hb).2.onward

theorem Op.onward {op : Op} {ep ep' : Ep} (h : Reached ep) (hs : op.step ep = .ok ep') : Onward ep ep' :=
  (step_tops hs).onward h.busy

/-! ### The timer definitions with which messages are passed -/

/-- N1 and T1 of every message that was passed, and the current ones, were configured. -/
def Configured (ep : Ep) : Prop :=
  (∃ k, Event.config ep.n1 ep.t1 k ∈ ep.log) ∧
  ∀ id n1 t1 m, Event.passed id n1 t1 m ∈ ep.log → ∃ k, Event.config n1 t1 k ∈ ep.log

theorem Configured.more {ep ep' : Ep} (h : Configured ep) (l : List Event) (hl : ep'.log = l ++ ep.log) (h1 : ep'.n1 = ep.n1)
    (h2 : ep'.t1 = ep.t1) (hp : ∀ id n1 t1 m, Event.passed id n1 t1 m ∈ l → n1 = ep.n1 ∧ t1 = ep.t1) : Configured ep' := by
  obtain ⟨⟨k, hk⟩, h3⟩ := h
  refine ⟨⟨k, by rw [h1, h2, hl]; exact List.mem_append_right _ hk⟩, ?_⟩
  intro id n1 t1 m hm
  rw [hl] at hm ⊢
  rcases List.mem_append.1 hm with hm | hm
  · obtain ⟨rfl, rfl⟩ := hp _ _ _ _ hm
    exact ⟨k, List.mem_append_right _ hk⟩
  · obtain ⟨k', hk'⟩ := h3 _ _ _ _ hm
    exact ⟨k', List.mem_append_right _ hk'⟩

theorem Refused.notPassed {ep : Ep} {why id m l} (h : Refused ep why id m l) :
    ∀ i n1 t1 m', Event.passed i n1 t1 m' ∉ l := by
  intro i n1 t1 m' hm
  exact (h.notSent i _ hm).2 _ _ _ rfl

theorem Configured.step {a b : Ep × Ph} (h : Configured a.1) (hs : Micro a b) : Configured b.1 := by
  have b1 : ∀ (ep : Ep) (m : PMsg), (ep.begun m).n1 = ep.n1 ∧ (ep.begun m).t1 = ep.t1 := by
    intro ep m
    unfold Ep.begun
    split <;> exact ⟨rfl, rfl⟩
  cases hs
  case txQueued ep ph m o _ _ _ =>
    refine h.more [.returned ep.nextId none, .send .tx ep.nextId (ep.outgoing m).remote o true ep.now,
      .passed ep.nextId ep.n1 ep.t1 (ep.outgoing m)] ?_ ?_ ?_ (by simp; omega)
    · simp only [Ep.logs, Ep.enqueue]
      split <;> simp only [begun_log]
    · simp only [Ep.logs, Ep.enqueue]
      split <;> exact (b1 ep m).1
    · simp only [Ep.logs, Ep.enqueue]
      split <;> exact (b1 ep m).2
  case txLost ep ph m e l h1 h2 =>
    exact h.more _ (by simp only [Ep.logs, begun_log]; rfl) (b1 ep m).1 (b1 ep m).2
      (by have := h2.notPassed; simp [this]; rintro _ _ _ _ - rfl rfl -; exact ⟨rfl, rfl⟩)
  case txLostCb ep ph m l h1 h2 h3 =>
    exact h.more _ (by simp only [Ep.logs, begun_log]; rfl) (b1 ep m).1 (b1 ep m).2
      (by have := h3.notPassed; simp [this]; rintro _ _ _ _ - rfl rfl -; exact ⟨rfl, rfl⟩)
  case txUnq ep ph m o _ _ _ _ =>
    exact h.more _ (by simp only [Ep.logs, begun_log]; rfl) (b1 ep m).1 (b1 ep m).2
      (by simp; rintro _ _ _ _ - rfl rfl -; exact ⟨rfl, rfl⟩)
  case txUnqCb ep ph m o _ _ _ _ _ =>
    exact h.more _ (by simp only [Ep.logs, begun_log]; rfl) (b1 ep m).1 (b1 ep m).2
      (by simp; rintro _ _ _ _ - rfl rfl -; exact ⟨rfl, rfl⟩)
  case close =>
    refine h.more _ rfl rfl rfl fun id n1 t1 m hm => ?_
    simp only [List.mem_reverse, List.mem_flatten, List.mem_map] at hm
    obtain ⟨_, ⟨x, _, rfl⟩, hm⟩ := hm
    simp at hm
  case timeout ep e l _ _ _ _ _ h6 =>
    refine h.more (.freed e.id :: l) rfl rfl rfl ?_
    rcases h6 with ⟨_, rfl⟩ | ⟨_, h6⟩
    · simp
    · have := h6.notPassed; simp [this]
  case timeoutCb ep e e' l _ _ _ _ _ h6 _ _ _ _ _ _ =>
    refine h.more (.respCb e.id none ep.now :: l) rfl rfl rfl ?_
    rcases h6 with ⟨_, rfl⟩ | ⟨_, h6⟩
    · simp
    · have := h6.notPassed; simp [this]
  case resend ep k e l m' _ _ _ _ h5 =>
    refine h.more l rfl rfl rfl ?_
    rcases h5 with ⟨rfl, _⟩ | ⟨o, ok, _, rfl⟩ <;> simp
  case quiet ep ph e hq => exact h.more [e] rfl rfl rfl (by cases hq <;> simp)
  case heartbeat l hl =>
    refine h.more l rfl rfl rfl ?_
    rcases hl with rfl | ⟨o, ok, _, rfl⟩ <;> simp
  case setTimers ep ph n1 t1 kr =>
    obtain ⟨_, h3⟩ := h
    refine ⟨⟨kr, .head _⟩, ?_⟩
    intro id n1' t1' m hm
    rcases List.mem_cons.1 hm with hm | hm
    · cases hm
    · obtain ⟨k', hk'⟩ := h3 _ _ _ _ hm
      exact ⟨k', .tail _ hk'⟩
  case replied => exact h.more [_] rfl rfl rfl (by simp)
  case retrans => exact h.more [_] rfl rfl rfl (by simp)
  case txLostEnd => exact h.more [_, _] rfl rfl rfl (by simp)
  case txUnqEnd => exact h.more [_] rfl rfl rfl (by simp)
  case expire => exact h.more [_] rfl rfl rfl (by simp)
  case complete => exact h.more [_] rfl rfl rfl (by simp)
  case matched => exact h.more [_] rfl rfl rfl (by simp)
  case called => exact h.more [_] rfl rfl rfl (by simp)
  case dispatched => exact h.more [_] rfl rfl rfl (by simp)
  all_goals exact h.more [] rfl rfl rfl (by simp)

theorem Reached.configured {ep : Ep} (h : Reached ep) : Configured ep := by
  induction h with
  | create cfg n1 t1 keepResp unixTime now => exact ⟨⟨keepResp, .head _⟩, fun _ _ _ _ h => by cases List.mem_singleton.1 h⟩
  | op op h hs ih => exact ((step_tops hs) h.busy).2.invariant (I := fun x => Configured x.1) (fun _ _ h hs => h.step hs) ih
  | rx m r h hr ih => exact ((handleRx_tops hr) h.busy).2.invariant (I := fun x => Configured x.1) (fun _ _ h hs => h.step hs) ih

theorem timersOf_config : ∀ {l : List Event} {n1 t k}, ∃ x, Event.config x (timersOf (l ++ [.config n1 t k])).1
    (timersOf (l ++ [.config n1 t k])).2 ∈ l ++ [.config n1 t k]
  | [], n1, t, k => ⟨n1, .head _⟩
  | e :: l, n1, t, k => by
    obtain ⟨x, hx⟩ := timersOf_config (l := l) (n1 := n1) (t := t) (k := k)
    rw [List.cons_append, timersOf]
    cases he : e.timers with
    | none => exact ⟨x, .tail _ hx⟩
    | some p =>
      cases e <;> simp only [Event.timers, reduceCtorEq, Option.some.injEq] at he
      subst he
      exact ⟨_, .head _⟩

/-- The KEEP_RESP that is remembered for a transmission was configured. -/
theorem lastSent_config {id} : ∀ {l : List Event} {n1 t k t0 v κ}, lastSent id (l ++ [.config n1 t k]) = some (t0, v, κ) →
    ∃ x, Event.config x v κ ∈ l ++ [.config n1 t k]
  | [], _, _, _, _, _, _, h => by simp [lastSent, Event.sentAt] at h
  | e :: l, n1, t, k, t0, v, κ, h => by
    rw [List.cons_append, lastSent] at h
    split at h
    · simp only [Option.some.injEq, Prod.mk.injEq] at h
      obtain ⟨x, hx⟩ := timersOf_config (l := l) (n1 := n1) (t := t) (k := k)
      rw [h.2] at hx
      exact ⟨x, .tail _ hx⟩
    · obtain ⟨x, hx⟩ := lastSent_config h
      exact ⟨x, .tail _ hx⟩

theorem lastSent_mem {id} : ∀ {l : List Event} {t0 v κ}, lastSent id l = some (t0, v, κ) → t0 ∈ sentTimes id l
  | [], _, _, _, h => by cases h
  | e :: l, t0, v, κ, h => by
    rw [lastSent] at h
    rw [sentTimes_cons]
    split at h
    · rename_i t he
      simp only [Option.some.injEq, Prod.mk.injEq] at h
      rw [he, h.1]; exact .head _
    · exact List.mem_append_right _ (lastSent_mem h)

theorem lastSent_some {id} : ∀ {l : List Event} {t}, t ∈ sentTimes id l → ∃ t0 v κ, lastSent id l = some (t0, v, κ)
  | [], _, h => by cases h
  | e :: l, t, h => by
    rw [sentTimes_cons] at h
    rw [lastSent]
    cases he : e.sentAt id with
    | some t' => exact ⟨_, _, _, rfl⟩
    | none =>
      rw [he] at h
      exact lastSent_some h

/-! ### Received messages are numbered -/

theorem handleRx_next {ep ep' : Ep} {m r} (h0 : Reached ep) (h : ep.handleRx m r = .ok ep') : ep.nextId < ep'.nextId := by
  unfold Ep.handleRx at h
  obtain ⟨ep1, h1, h⟩ := Res.bind_eq_ok h
  obtain ⟨ep2, h8, h9⟩ := Res.bind_eq_ok h
  obtain ⟨ps, t, us, rfl⟩ := releaseUses_only h9
  obtain ⟨_, _, _, _, _, _, _, _, _, _, _, _, g1, g2, _⟩ := heartbeatReply_adds h1
  have hk : .received ep.nextId m ∈ ep1.log := by
    obtain ⟨l, hl⟩ := heartbeatReply_log h1
    rw [hl]
    simp [Ep.note]
  have hb : ep1.busy = [] := g1.trans h0.busy
  have : Tops ep1 ep2 := by
    unfold Ep.handleMsg at h8
    split at h8
    · rename_i prev hq
      by_cases hm : m.isResponse = true
      · rw [if_pos hm] at h8 hq
        exact handleResponse_tops hq hm hk h8
      · rw [if_neg hm] at h8 hq
        exact handleDuplicate_tops hq (by simpa using hm) hk h8
    · obtain ⟨ep3, h2, h8⟩ := Res.bind_eq_ok h8
      exact ((setCtx_none_goes h2).trans (dispatch_none_goes h8)).tops
  have := (this.onward hb).next
  have g2 : ep.nextId + 1 ≤ ep1.nextId := g2
  show ep.nextId < ep2.nextId
  omega

/-- What was received has a number of its own; only what was received is dispatched. -/
structure Numbered (ep : Ep) : Prop where
  lt : ∀ k y, Event.received k y ∈ ep.log → k < ep.nextId
  one : ∀ k y y', Event.received k y ∈ ep.log → Event.received k y' ∈ ep.log → y' = y
  dispatched : ∀ k req, Event.dispatch k req ∈ ep.log → ∃ y, Event.received k y ∈ ep.log

theorem mem_rxEvents {l : List Event} {e} (h : isRx e = true) : e ∈ rxEvents l ↔ e ∈ l := by
  simp [rxEvents, h]

/-- What is new when a message was received. -/
theorem Reached.rxNew {ep ep' : Ep} (h : Reached ep) {m r} (hr : ep.handleRx m r = .ok ep') :
    ∃ l, ep'.log = l ++ ep.log ∧ Event.received ep.nextId m ∈ l ∧ (∀ k y, Event.received k y ∈ l → k = ep.nextId ∧ y = m) ∧
      ∀ k req, Event.dispatch k req ∈ l → k = ep.nextId := by
  obtain ⟨hb, tail, ⟨l, hl, hx⟩, b0, -, -, -, c1, c2, c3⟩ := h.rxEvents hr
  have ht : (∀ k y, Event.received k y ∉ tail) ∧ ∀ k req, Event.dispatch k req ∈ tail → k = ep.nextId := by
    cases hm : m.isResponse with
    | true =>
      cases hf : queueFind ep.reqs m with
      | none => rw [c1 (by simp [hm, hf])]; simp
      | some prev =>
        rw [(c2 prev hm hf).1]
        constructor
        · intro k y hk
          split at hk
          · split at hk <;> simp at hk
          · simp at hk
        · intro k req hk
          split at hk
          · split at hk <;> simp at hk
            exact hk.1
          · simp at hk
            exact hk.1
    | false =>
      cases hf : queueFind ep.resps m with
      | none => rw [c1 (by simp [hm, hf])]; simp
      | some prev =>
        obtain ⟨o', _, t2, _⟩ := c3 prev hm hf
        rw [t2]; simp
  have hc : ∀ k req e, e ∈ ctxEvent ep k req → ∃ a b, e = .setCtx a b := by
    intro k req e he
    unfold ctxEvent at he
    split at he
    · cases List.mem_singleton.1 he; exact ⟨_, _, rfl⟩
    · cases he
  refine ⟨l, hl, ?_, ?_, ?_⟩
  · rw [← mem_rxEvents rfl, hx]; simp
  · intro k y hk
    rw [← mem_rxEvents rfl, hx] at hk
    simp only [List.mem_append, List.mem_cons] at hk
    rcases hk with ((hk | hk) | hk) | hk
    · cases hk; exact ⟨rfl, rfl⟩
    · obtain ⟨_, _, _, _, _, h⟩ := b0 _ hk; cases h
    · obtain ⟨_, _, h⟩ := hc _ _ _ hk; cases h
    · exact absurd hk (ht.1 _ _)
  · intro k req hk
    rw [← mem_rxEvents rfl, hx] at hk
    simp only [List.mem_append, List.mem_cons] at hk
    rcases hk with ((hk | hk) | hk) | hk
    · cases hk
    · obtain ⟨_, _, _, _, _, h⟩ := b0 _ hk; cases h
    · obtain ⟨_, _, h⟩ := hc _ _ _ hk; cases h
    · exact ht.2 _ _ hk

theorem Numbered.rx {ep ep' : Ep} (hn : Numbered ep) (h : Reached ep) {m r} (hr : ep.handleRx m r = .ok ep') : Numbered ep' := by
  obtain ⟨l, hl, h1, h2, h3⟩ := h.rxNew hr
  have hlt := handleRx_next h hr
  refine ⟨?_, ?_, ?_⟩
  · intro k y hk
    rw [hl] at hk
    rcases List.mem_append.1 hk with hk | hk
    · rw [(h2 _ _ hk).1]; exact hlt
    · exact Nat.lt_trans (hn.lt _ _ hk) hlt
  · intro k y y' hk hk'
    rw [hl] at hk hk'
    rcases List.mem_append.1 hk with hk | hk <;> rcases List.mem_append.1 hk' with hk' | hk'
    · rw [(h2 _ _ hk).2, (h2 _ _ hk').2]
    · have := hn.lt _ _ hk'
      rw [(h2 _ _ hk).1] at this
      omega
    · have := hn.lt _ _ hk
      rw [(h2 _ _ hk').1] at this
      omega
    · exact hn.one _ _ _ hk hk'
  · intro k req hk
    rw [hl] at hk ⊢
    rcases List.mem_append.1 hk with hk | hk
    · rw [h3 _ _ hk]; exact ⟨m, List.mem_append_left _ h1⟩
    · obtain ⟨y, hy⟩ := hn.dispatched _ _ hk
      exact ⟨y, List.mem_append_right _ hy⟩

theorem Numbered.local {ep ep' : Ep} (hn : Numbered ep) (hle : ep.nextId ≤ ep'.nextId) {l} (hl : ep'.log = l ++ ep.log)
    (hx : ∀ e ∈ l, isRx e = false) : Numbered ep' := by
  have old : ∀ e, isRx e = true → e ∈ ep'.log → e ∈ ep.log := by
    intro e he hm
    rw [hl] at hm
    rcases List.mem_append.1 hm with hm | hm
    · rw [hx _ hm] at he; cases he
    · exact hm
  refine ⟨fun k y hk => Nat.lt_of_lt_of_le (hn.lt k y (old _ rfl hk)) hle, fun k y y' hk hk' => hn.one k y y' (old _ rfl hk) (old _ rfl hk'), ?_⟩
  intro k req hk
  obtain ⟨y, hy⟩ := hn.dispatched k req (old _ rfl hk)
  exact ⟨y, by rw [hl]; exact List.mem_append_right _ hy⟩

theorem Numbered.all {remote} : ∀ {l : List Rx} {rs} {ep ep' : Ep}, Numbered ep → Reached ep →
    ep.handleAll remote l rs = .ok ep' → Numbered ep'
  | [], _, ep, ep', hn, _, h => by cases h; exact hn
  | ⟨_, none⟩ :: l, rs, ep, ep', hn, h0, h => Numbered.all (l := l) hn h0 h
  | ⟨d, some ies⟩ :: l, rs, ep, ep', hn, h0, h => by
    obtain ⟨ep1, h1, h⟩ := Res.bind_eq_ok h
    exact Numbered.all (hn.rx h0 h1) (h0.rx _ _ h1) h

theorem Reached.numbered {ep : Ep} (h : Reached ep) : Numbered ep := by
  induction h with
  | create =>
    exact ⟨fun _ _ h => (by cases List.mem_singleton.1 h), fun _ _ _ h => (by cases List.mem_singleton.1 h),
      fun _ _ h => (by cases List.mem_singleton.1 h)⟩
  | rx m r h hr ih => exact ih.rx h hr
  | @op ep ep' op h hs ih =>
    by_cases hl : op.isLocal
    · obtain ⟨l, h1, h2⟩ := Op.local_log hl hs
      exact ih.local (Op.onward h hs).next h1 h2
    · cases op with
      | rx s d rs =>
        replace hs : ep.rxDatagram s d rs = .ok ep' := hs
        unfold Ep.rxDatagram at hs
        dsimp only at hs
        split at hs
        · cases hs; exact ih
        split at hs
        · cases hs
        obtain ⟨l, _, hs⟩ := Res.bind_eq_ok hs
        exact ih.all h hs
      | _ => exact absurd trivial hl

end Verif
