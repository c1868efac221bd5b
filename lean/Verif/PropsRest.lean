/-
Properties of the endpoint: it comes to rest (C114).
-/
import Verif.PropsTime
import Verif.PropsSafe
import Verif.TimedLemmas

namespace Verif
open Props

/-! ### Transmissions are not further apart than T1 -/

theorem timersOf_most {v k0 : Nat} : ∀ {l : List Event} {n1 t k},
    (∀ a b c, Event.config a b c ∈ l ++ [.config n1 t k] → b ≤ v ∧ c ≤ k0) →
    (timersOf (l ++ [.config n1 t k])).1 ≤ v ∧ (timersOf (l ++ [.config n1 t k])).2 ≤ k0
  | [], n1, t, k, h => h n1 t k (.head _)
  | e :: l, n1, t, k, h => by
    have ih := timersOf_most (l := l) fun a b c hm => h a b c (.tail _ hm)
    cases e
    case config a b c => exact h a b c (.head _)
    all_goals exact ih

/-- If timers are handled on time and T1 is at most `v`, the last transmission is at most as many times `v` after the first one
as there were others. -/
theorem sentTimes_close {id v k0 : Nat} {n1 t k} : ∀ {l : List Event} {s}, Life id (l ++ [.config n1 t k]) s →
    AllTimely True (l ++ [.config n1 t k]) → (∀ a b c, Event.config a b c ∈ l ++ [.config n1 t k] → b ≤ v ∧ c ≤ k0) →
    ∀ {t0 r o}, Event.send .tx id r o true t0 ∈ l ++ [.config n1 t k] →
    ∃ t' v' k', lastSent id (l ++ [.config n1 t k]) = some (t', v', k') ∧ v' ≤ v ∧ k' ≤ k0 ∧
      t' + v ≤ t0 + (sentTimes id (l ++ [.config n1 t k])).length * v
  | [], s, _, _, _, _, _, _, h => by cases List.mem_singleton.1 h
  | e :: l, s, hl, ht, hc, t0, r, o, h0 => by
    rw [List.cons_append] at hl ht hc h0 ⊢
    obtain ⟨s0, hl0, hn⟩ := hl.uncons
    have hc' : ∀ a b c, Event.config a b c ∈ l ++ [.config n1 t k] → b ≤ v ∧ c ≤ k0 := fun a b c hm => hc a b c (.tail _ hm)
    have hv := timersOf_most hc'
    rw [sentTimes_cons, lastSent]
    cases hs : e.sentAt id with
    | none =>
      refine sentTimes_close hl0 ht.2 hc' (t0 := t0) (r := r) (o := o) ?_
      rcases List.mem_cons.1 h0 with rfl | h0
      · simp [Event.sentAt] at hs
      · exact h0
    | some te =>
      refine ⟨te, (timersOf (l ++ [.config n1 t k])).1, (timersOf (l ++ [.config n1 t k])).2, rfl, hv.1, hv.2, ?_⟩
      have ht1 := ht.1
      unfold Event.sentAt at hs
      split at hs
      · rename_i i r' o' t2
        have hi : i = id := by
          by_cases h : i = id
          · exact h
          · rw [if_neg h] at hs; cases hs
        subst hi
        rw [if_pos rfl] at hs
        cases hs
        have hun : Unsent i (l ++ [.config n1 t k]) := by
          cases hn
          case other ha => exact absurd rfl ha
          case send => exact hl0.outcome
        rcases List.mem_cons.1 h0 with h0 | h0
        · cases h0
          rw [hun]
          simp
        · have hm : t0 ∈ sentTimes i (l ++ [.config n1 t k]) := List.mem_filterMap.2 ⟨_, h0, if_pos rfl⟩
          rw [hun] at hm
          cases hm
      · rename_i i r' o' t2
        have hi : i = id := by
          by_cases h : i = id
          · exact h
          · rw [if_neg h] at hs; cases hs
        subst hi
        rw [if_pos rfl] at hs
        cases hs
        have h0 : Event.send .tx i r o true t0 ∈ l ++ [.config n1 t k] := by
          rcases List.mem_cons.1 h0 with h0 | h0
          · cases h0
          · exact h0
        obtain ⟨t', v', k', g1, g2, _, g3⟩ := sentTimes_close hl0 ht.2 hc' h0
        obtain ⟨t1, v1, k1, h1, h2⟩ := ht1
        rw [g1] at h1
        simp only [Option.some.injEq, Prod.mk.injEq] at h1
        obtain ⟨rfl, rfl, rfl⟩ := h1
        have := h2.2 trivial
        simp only [Option.toList_some, List.cons_append, List.nil_append, List.length_cons, Nat.add_mul]
        omega
      · cases hs

/-- What was sent was passed to osmo_pfcp_endpoint_tx() and sent by it first. -/
theorem first_sent {id : Nat} : ∀ {l : List Event}, AllTimely False l → ∀ {x}, lastSent id l = some x →
    ∃ r o t0, Event.send .tx id r o true t0 ∈ l
  | [], _, _, h => by cases h
  | e :: l, ht, x, h => by
    rw [lastSent] at h
    cases hs : e.sentAt id with
    | none =>
      rw [hs] at h
      obtain ⟨r, o, t0, h⟩ := first_sent ht.2 h
      exact ⟨r, o, t0, .tail _ h⟩
    | some te =>
      have ht1 := ht.1
      unfold Event.sentAt at hs
      split at hs
      · rename_i i r' o' t2
        have hi : i = id := by
          by_cases h : i = id
          · exact h
          · rw [if_neg h] at hs; cases hs
        subst hi
        exact ⟨_, _, _, .head _⟩
      · rename_i i r' o' t2
        have hi : i = id := by
          by_cases h : i = id
          · exact h
          · rw [if_neg h] at hs; cases hs
        subst hi
        obtain ⟨t1, v1, k1, h1, _⟩ := ht1
        obtain ⟨r, o, t0, h⟩ := first_sent ht.2 h1
        exact ⟨r, o, t0, .tail _ h⟩
      · cases hs

/-- What was just sent, or is kept, was sent once (retransmissions of kept responses are not counted: they do not start the timer
again). -/
theorem Life.once_sent {id log s} (h : Life id log s) :
    ((∃ n1 t1 m o, s = .sent n1 t1 m o) ∨ ∃ n1 t1 m o, s = .kept n1 t1 m o) → (sentTimes id log).length = 1 := by
  induction h with
  | nil => rintro (⟨_, _, _, _, h⟩ | ⟨_, _, _, _, h⟩) <;> cases h
  | @cons l s e s' hl hn ih =>
    rw [sentTimes_cons]
    cases hn
    case other ha => rw [sentAt_not_about ha]; exact ih
    case send =>
      intro _
      have hun : Unsent id l := hl.outcome
      rw [hun]
      simp [Event.sentAt]
    case queueResp =>
      intro _
      exact ih (.inl ⟨_, _, _, _, rfl⟩)
    case cached =>
      intro h
      exact ih h
    all_goals (rintro (⟨_, _, _, _, h⟩ | ⟨_, _, _, _, h⟩) <;> cases h)

/-! ### What was sent is past -/

theorem Refused.sendPast {ep : Ep} {why id m l} (h : Refused ep why id m l) :
    ∀ e ∈ l, ∀ id t, e.sentAt id = some t → t ≤ ep.now := by
  intro e he i t ht
  rw [(h.notSent i e he).1] at ht
  cases ht

theorem Micro.sendPast {a b : Ep × Ph} (h : Micro a b) :
    a.1.now ≤ b.1.now ∧ ∃ l, b.1.log = l ++ a.1.log ∧ ∀ e ∈ l, ∀ id t, e.sentAt id = some t → t ≤ a.1.now := by
  have bnow : ∀ (ep : Ep) (m : PMsg), (ep.begun m).now = ep.now := by
    intro ep m
    unfold Ep.begun
    split <;> rfl
  have sent : ∀ {why i r o ok t id t'}, (Event.send why i r o ok t).sentAt id = some t' → t' ≤ t :=
    fun h => Nat.le_of_eq (sentAt_time h)
  cases h
  case txQueued ep ph m o _ _ _ =>
    refine ⟨?_, [.returned ep.nextId none, .send .tx ep.nextId (ep.outgoing m).remote o true ep.now,
      .passed ep.nextId ep.n1 ep.t1 (ep.outgoing m)], ?_, ?_⟩
    · simp only [Ep.logs, Ep.enqueue]
      split <;> exact Nat.le_of_eq (bnow ep m).symm
    · simp only [Ep.logs, Ep.enqueue]
      split <;> simp only [begun_log]
    · intro e he id t ht
      simp only [List.mem_cons, List.not_mem_nil, or_false] at he
      rcases he with rfl | rfl | rfl
      · cases ht
      · exact sent ht
      · cases ht
  case txLost ep ph m e l h1 h2 =>
    refine ⟨Nat.le_of_eq (bnow ep m).symm, _, by simp only [Ep.logs, begun_log]; rfl, ?_⟩
    intro x hx id t ht
    simp only [List.mem_append, List.mem_cons, List.not_mem_nil, or_false] at hx
    rcases hx with ((rfl | rfl) | hx) | rfl
    · cases ht
    · cases ht
    · exact h2.sendPast _ hx _ _ ht
    · cases ht
  case txLostCb ep ph m l h1 h2 h3 =>
    refine ⟨Nat.le_of_eq (bnow ep m).symm, _, by simp only [Ep.logs, begun_log]; rfl, ?_⟩
    intro x hx id t ht
    simp only [List.mem_append, List.mem_cons, List.not_mem_nil, or_false] at hx
    rcases hx with (rfl | hx) | rfl
    · cases ht
    · exact h3.sendPast _ hx _ _ ht
    · cases ht
  case txUnq ep ph m o _ _ _ _ =>
    refine ⟨Nat.le_of_eq (bnow ep m).symm, _, by simp only [Ep.logs, begun_log]; rfl, ?_⟩
    intro e he id t ht
    simp only [List.mem_cons, List.not_mem_nil, or_false] at he
    rcases he with rfl | rfl | rfl
    · cases ht
    · exact sent ht
    · cases ht
  case txUnqCb ep ph m o _ _ _ _ _ =>
    refine ⟨Nat.le_of_eq (bnow ep m).symm, _, by simp only [Ep.logs, begun_log]; rfl, ?_⟩
    intro e he id t ht
    simp only [List.mem_cons, List.not_mem_nil, or_false] at he
    rcases he with rfl | rfl | rfl
    · cases ht
    · exact sent ht
    · cases ht
  case close ep ph hn =>
    refine ⟨Nat.le_refl _, _, rfl, ?_⟩
    intro e he id t ht
    simp only [List.mem_reverse, List.mem_flatten, List.mem_map] at he
    obtain ⟨_, ⟨x, _, rfl⟩, he⟩ := he
    simp only [List.mem_cons, List.not_mem_nil, or_false] at he
    rcases he with rfl | rfl <;> cases ht
  case timeout ep e l _ _ _ _ _ h6 =>
    refine ⟨Nat.le_refl _, .freed e.id :: l, rfl, ?_⟩
    intro x hx id t ht
    rcases List.mem_cons.1 hx with rfl | hx
    · cases ht
    rcases h6 with ⟨_, rfl⟩ | ⟨_, h6⟩
    · cases hx
    · exact h6.sendPast _ hx _ _ ht
  case timeoutCb ep e e' l _ _ _ _ _ h6 _ _ _ _ _ _ =>
    refine ⟨Nat.le_refl _, .respCb e.id none ep.now :: l, rfl, ?_⟩
    intro x hx id t ht
    rcases List.mem_cons.1 hx with rfl | hx
    · cases ht
    rcases h6 with ⟨_, rfl⟩ | ⟨_, h6⟩
    · cases hx
    · exact h6.sendPast _ hx _ _ ht
  case resend ep k e l m' _ _ _ _ h5 =>
    refine ⟨Nat.le_refl _, l, rfl, ?_⟩
    rcases h5 with ⟨rfl, _⟩ | ⟨o, ok, _, rfl⟩
    · simp
    · intro x hx id t ht
      cases List.mem_singleton.1 hx
      exact sent ht
  case quiet e hq =>
    refine ⟨Nat.le_refl _, [e], rfl, ?_⟩
    intro x hx id t ht
    cases List.mem_singleton.1 hx
    rw [(hq.notSent id).1] at ht
    cases ht
  case heartbeat l hl =>
    refine ⟨Nat.le_refl _, l, rfl, ?_⟩
    rcases hl with rfl | ⟨o, ok, _, rfl⟩
    · simp
    · intro x hx id t ht
      cases List.mem_singleton.1 hx
      exact sent ht
  case replied =>
    refine ⟨Nat.le_refl _, [_], rfl, ?_⟩
    intro x hx id t ht
    cases List.mem_singleton.1 hx
    exact sent ht
  case retrans =>
    refine ⟨Nat.le_refl _, [_], rfl, ?_⟩
    intro x hx id t ht
    cases List.mem_singleton.1 hx
    exact sent ht
  case txLostEnd =>
    refine ⟨Nat.le_refl _, [_, _], rfl, ?_⟩
    intro x hx id t ht
    simp only [List.mem_cons, List.not_mem_nil, or_false] at hx
    rcases hx with rfl | rfl <;> cases ht
  case advance => exact ⟨Nat.le_add_right _ _, [], rfl, by simp⟩
  case txUnqEnd => exact ⟨Nat.le_refl _, [_], rfl, fun x hx id t ht => by cases List.mem_singleton.1 hx; cases ht⟩
  case expire => exact ⟨Nat.le_refl _, [_], rfl, fun x hx id t ht => by cases List.mem_singleton.1 hx; cases ht⟩
  case setTimers => exact ⟨Nat.le_refl _, [_], rfl, fun x hx id t ht => by cases List.mem_singleton.1 hx; cases ht⟩
  case complete => exact ⟨Nat.le_refl _, [_], rfl, fun x hx id t ht => by cases List.mem_singleton.1 hx; cases ht⟩
  case matched => exact ⟨Nat.le_refl _, [_], rfl, fun x hx id t ht => by cases List.mem_singleton.1 hx; cases ht⟩
  case called => exact ⟨Nat.le_refl _, [_], rfl, fun x hx id t ht => by cases List.mem_singleton.1 hx; cases ht⟩
  case dispatched => exact ⟨Nat.le_refl _, [_], rfl, fun x hx id t ht => by cases List.mem_singleton.1 hx; cases ht⟩
  all_goals exact ⟨Nat.le_refl _, [], rfl, by simp⟩

theorem Steps.sendPast {a b : Ep × Ph} (h : Steps a b) (h0 : ∀ e ∈ a.1.log, ∀ id t, e.sentAt id = some t → t ≤ a.1.now) :
    ∀ e ∈ b.1.log, ∀ id t, e.sentAt id = some t → t ≤ b.1.now := by
  induction h with
  | refl => exact h0
  | snoc _ hm ih =>
    obtain ⟨h1, l, h2, h3⟩ := hm.sendPast
    intro e he id t ht
    rw [h2] at he
    rcases List.mem_append.1 he with he | he
    · exact Nat.le_trans (h3 e he id t ht) h1
    · exact Nat.le_trans (ih e he id t ht) h1

theorem Reached.sendPast {ep : Ep} (h : Reached ep) : ∀ e ∈ ep.log, ∀ id t, e.sentAt id = some t → t ≤ ep.now := by
  induction h with
  | create =>
    intro e he
    cases List.mem_singleton.1 he
    intro id t ht
    cases ht
  | op o h0 h ih => exact (step_tops h h0.busy).2.sendPast ih
  | rx m r h0 h ih => exact (handleRx_tops h h0.busy).2.sendPast ih

end Verif

namespace Verif.Props
open Verif Spec

/-- The timers are bounded. -/
theorem config_bound : ∀ L : List Event, ∃ k0, ∀ a b c, Event.config a b c ∈ L → b ≤ k0 ∧ c ≤ k0
  | [] => ⟨0, nofun⟩
  | e :: L => by
    obtain ⟨k0, ih⟩ := config_bound L
    refine ⟨k0 + (match e with | .config _ b c => b + c | _ => 0), ?_⟩
    intro a b c hm
    rcases List.mem_cons.1 hm with rfl | hm
    · dsimp only; omega
    · have := ih _ _ _ hm; omega

/-! ### C114: nothing stays -/

/-- C114: if timers are handled on time, and T1 never was more than `v`, then no request is waited for longer than (N1 + 1) * T1:
N1 is what it was when the request was passed to osmo_pfcp_endpoint_tx(), `t0` the time when it was sent first. -/
theorem C114_request_age {ep : Ep} (h : Punctual ep) {id n1 t1 m v t0 r o} (hq : ep.pending id)
    (hp : Event.passed id n1 t1 m ∈ ep.log) (h0 : Event.send .tx id r o true t0 ∈ ep.log)
    (hv : ∀ a b c, Event.config a b c ∈ ep.log → b ≤ v) : ep.now ≤ t0 + (n1 + 1) * v := by
  obtain ⟨e, he, rfl⟩ := hq
  obtain ⟨s, h1, h2, _⟩ := h.reached.stage e.id
  have hroom := h2.room n1 t1 m ((h2.info _ _ _).1 hp)
  have hle := sentTimes_le e.id ep.log
  obtain ⟨t, v', k', g1, g2⟩ := h.timeInv.reqs e he
  obtain ⟨d, hd⟩ := Option.isSome_iff_exists.1 ((C53_queues h.reached).1 e he).2
  obtain ⟨g3, g4⟩ := g2 d hd
  have g4 := g4 trivial
  obtain ⟨l, a, b, c, hl⟩ := h.reached.begins
  have ht0 := h.timeInv.events
  dsimp only at ht0 g1 g4
  rw [hl] at h1 ht0 hv h0 hle hroom g1
  obtain ⟨k0, hk0⟩ := config_bound (l ++ [Event.config a b c])
  obtain ⟨t', v'', k'', e1, e2, _, e3⟩ := sentTimes_close h1 ht0 (fun x y z hm => ⟨hv x y z hm, (hk0 x y z hm).2⟩) h0
  rw [g1] at e1
  simp only [Option.some.injEq, Prod.mk.injEq] at e1
  obtain ⟨rfl, rfl, rfl⟩ := e1
  have : (sentTimes e.id (l ++ [Event.config a b c])).length * v ≤ (n1 + 1) * v := Nat.mul_le_mul_right _ (by omega)
  omega

/-- C114: likewise, no response is kept longer than KEEP_RESP. -/
theorem C114_response_age {ep : Ep} (h : Punctual ep) {id k t0 r o} (hq : ep.keeps id)
    (h0 : Event.send .tx id r o true t0 ∈ ep.log)
    (hk : ∀ a b c, Event.config a b c ∈ ep.log → c ≤ k) : ep.now ≤ t0 + k := by
  obtain ⟨e, he, rfl⟩ := hq
  obtain ⟨t, v', k', g1, g2⟩ := h.timeInv.resps e he
  obtain ⟨d, hd⟩ := Option.isSome_iff_exists.1 ((C53_queues h.reached).2 e he).2
  obtain ⟨g3, g4⟩ := g2 d hd
  have g4 := g4 trivial
  obtain ⟨s, h1, _, h3⟩ := h.reached.stage e.id
  have hlen : (sentTimes e.id ep.log).length = 1 := by
    refine h1.once_sent (.inr ?_)
    obtain ⟨x, hx⟩ := keeps_iff.1 ⟨e, he, rfl⟩
    rw [hx] at h3
    cases s <;> simp [Fits] at h3
    exact ⟨_, _, _, _, rfl⟩
  obtain ⟨l, a, b, c, hl⟩ := h.reached.begins
  have ht0 := h.timeInv.events
  dsimp only at ht0 g1 g4
  rw [hl] at h1 ht0 hk h0 hlen g1
  obtain ⟨v0, hv0⟩ := config_bound (l ++ [Event.config a b c])
  obtain ⟨t', v'', k'', e1, _, e2, e3⟩ := sentTimes_close h1 ht0 (fun x y z hm => ⟨(hv0 x y z hm).1, hk x y z hm⟩) h0
  rw [g1] at e1
  simp only [Option.some.injEq, Prod.mk.injEq] at e1
  obtain ⟨rfl, rfl, rfl⟩ := e1
  rw [hlen] at e3
  omega

/-- What the endpoint waits for, or keeps, it has sent: osmo_pfcp_endpoint_tx() did. -/
theorem C114_was_sent {ep : Ep} (h : Reached ep) {id} (hq : ep.pending id ∨ ep.keeps id) :
    (∃ n1 t1 m, Event.passed id n1 t1 m ∈ ep.log) ∧ ∃ r o t0, Event.send .tx id r o true t0 ∈ ep.log := by
  obtain ⟨s, h1, h2, h3⟩ := h.stage id
  constructor
  · rw [pending_iff, keeps_iff] at hq
    cases hi : s.info with
    | some x => exact ⟨_, _, _, (h2.info _ _ _).2 hi⟩
    | none =>
      cases s <;> simp [Stage.info] at hi
      simp [Fits] at h3
      simp [h3] at hq
  · have ht := h.timeInv
    rcases hq with ⟨e, he, rfl⟩ | ⟨e, he, rfl⟩
    · obtain ⟨t, v, k, g, _⟩ := ht.reqs e he
      exact first_sent ht.events g
    · obtain ⟨t, v, k, g, _⟩ := ht.resps e he
      exact first_sent ht.events g

end Verif.Props

namespace Verif.Spec
open Verif

/-- The event is a message that osmo_pfcp_endpoint_tx() sent within the last `d` milliseconds. -/
def SentWithin (d now : Nat) : Event → Prop
  | .send .tx _ _ _ true t => now ≤ t + d
  | _ => False

instance (d now : Nat) : DecidablePred (SentWithin d now) := fun e => by
  unfold SentWithin
  split <;> infer_instance

end Verif.Spec

namespace Verif.Props
open Verif Spec

/-- A list without repetitions is not longer than one that has all of its elements. -/
theorem length_le_of_subset' {α : Type} [DecidableEq α] : ∀ {l m : List α}, l.Nodup → (∀ x ∈ l, x ∈ m) → l.length ≤ m.length
  | [], _, _, _ => Nat.zero_le _
  | x :: l, m, hn, hs => by
    rw [List.nodup_cons] at hn
    have hx : x ∈ m := hs x (.head _)
    have := length_le_of_subset' (l := l) (m := m.erase x) hn.2 fun y hy =>
      (List.mem_erase_of_ne (by rintro rfl; exact hn.1 hy)).2 (hs y (.tail _ hy))
    rw [List.length_erase_of_mem hx] at this
    have := List.length_pos_of_mem hx
    simp only [List.length_cons]
    omega

/-- Whom an event is about that is a transmission. -/
def Event.sender : Event → Nat
  | .send _ id .. => id
  | _ => 0

/-- C114: the queues are never longer than the number of messages that were sent recently: within (N1 + 1) * T1 or KEEP_RESP,
whichever is longer. `n`, `v`, `k` bound N1, T1 and KEEP_RESP as they were configured. -/
theorem C114_size {ep : Ep} (h : Punctual ep) {n v k d} (hn : ∀ id n1 t1 m, Event.passed id n1 t1 m ∈ ep.log → n1 ≤ n)
    (hc : ∀ a b c, Event.config a b c ∈ ep.log → b ≤ v ∧ c ≤ k) (hd : (n + 1) * v ≤ d ∧ k ≤ d) :
    ep.reqs.length + ep.resps.length ≤ (ep.log.filter fun e => SentWithin d ep.now e).length := by
  have h1 := length_le_of_subset' (m := (ep.log.filter fun e => SentWithin d ep.now e).map Event.sender) h.reached.inv.nodupBoth ?_
  · simpa using h1
  intro id hid
  obtain ⟨e, he, rfl⟩ := List.mem_map.1 hid
  have hq : ep.pending e.id ∨ ep.keeps e.id :=
    (List.mem_append.1 he).imp (fun h => ⟨e, h, rfl⟩) fun h => ⟨e, h, rfl⟩
  obtain ⟨⟨n1, t1, m, hp⟩, r, o, t0, h0⟩ := C114_was_sent h.reached hq
  refine List.mem_map.2 ⟨_, List.mem_filter.2 ⟨h0, decide_eq_true ?_⟩, rfl⟩
  show ep.now ≤ t0 + d
  rcases hq with hq | hq
  · have g := C114_request_age h hq hp h0 fun a b c hm => (hc a b c hm).1
    have : (n1 + 1) * v ≤ (n + 1) * v := Nat.mul_le_mul_right _ (by have := hn _ _ _ _ hp; omega)
    omega
  · have g := C114_response_age h hq h0 fun a b c hm => (hc a b c hm).2
    omega

/-- C114: an endpoint whose user stops sending, and whose timers are handled on time, comes to rest. -/
theorem C114_at_rest {ep : Ep} (h : Punctual ep) {n v k} (hn : ∀ id n1 t1 m, Event.passed id n1 t1 m ∈ ep.log → n1 ≤ n)
    (hc : ∀ a b c, Event.config a b c ∈ ep.log → b ≤ v ∧ c ≤ k)
    (hq : ∀ id r o t0, Event.send .tx id r o true t0 ∈ ep.log → t0 + (n + 1) * v < ep.now ∧ t0 + k < ep.now) :
    ep.isBusy = false := by
  cases hb : ep.isBusy with
  | false => rfl
  | true =>
    obtain ⟨id, hid⟩ := (C53_is_busy ep).1 hb
    obtain ⟨⟨n1, t1, m, hp⟩, r, o, t0, h0⟩ := C114_was_sent h.reached hid
    have g0 := hq _ _ _ _ h0
    rcases hid with hid | hid
    · have g := C114_request_age h hid hp h0 fun a b c hm => (hc a b c hm).1
      have : (n1 + 1) * v ≤ (n + 1) * v := Nat.mul_le_mul_right _ (by have := hn _ _ _ _ hp; omega)
      omega
    · have g := C114_response_age h hid h0 fun a b c hm => (hc a b c hm).2
      omega

end Verif.Props

namespace Verif.Spec
open Verif

/-- From `ep` on nothing happened but that time passed and that the timers of the queues were handled on time; resp_cb() did
nothing. -/
inductive Idles (ep : Ep) : Ep → Prop
  | refl : Idles ep ep
  | advance {a} (ms : Nat) : Idles ep a → (∀ e ∈ a.reqs ++ a.resps, ∀ d, e.timer = some d → a.now + ms ≤ d) →
      Idles ep { a with now := a.now + ms }
  | request {a b} (id : Nat) (io : Bool) : Idles ep a → (Op.reqTimer id io .done).step a = .ok b → Idles ep b
  | response {a b} (id : Nat) : Idles ep a → (Op.respTimer id).step a = .ok b → Idles ep b

end Verif.Spec

namespace Verif.Props
open Verif Spec

theorem _root_.Verif.Spec.Idles.punctual' {ep ep' : Ep} (hp : Punctual ep) (h : Idles ep ep') : Punctual ep' := by
  induction h with
  | refl => exact hp
  | advance ms _ hq ih => exact .advance ms ih hq
  | request id io _ hs ih => exact .op _ ih (fun _ h => by cases h) hs
  | response id _ hs ih => exact .op _ ih (fun _ h => by cases h) hs

/-! #### What a timer does -/

/-- Not about new messages or the configuration. -/
structure Old (e : Event) : Prop where
  passed : ∀ id n1 t1 m, e ≠ .passed id n1 t1 m
  config : ∀ a b c, e ≠ .config a b c
  tx : ∀ id r o ok t, e ≠ .send .tx id r o ok t

theorem old_nil : ∀ e ∈ ([] : List Event), Old e := fun _ h => (List.not_mem_nil h).elim
theorem old_freed (id) : Old (.freed id) := ⟨fun _ _ _ _ h => (by cases h), fun _ _ _ h => (by cases h), fun _ _ _ _ _ h => (by cases h)⟩
theorem old_peer (fi e) : Old (.peer fi e) := ⟨fun _ _ _ _ h => (by cases h), fun _ _ _ h => (by cases h), fun _ _ _ _ _ h => (by cases h)⟩
theorem old_respCb (id r t) : Old (.respCb id r t) := ⟨fun _ _ _ _ h => (by cases h), fun _ _ _ h => (by cases h), fun _ _ _ _ _ h => (by cases h)⟩
theorem old_retrans (id r o ok t) : Old (.send .retrans id r o ok t) :=
  ⟨fun _ _ _ _ h => (by cases h), fun _ _ _ h => (by cases h), fun _ _ _ _ _ h => (by cases h)⟩
theorem old_one {x : Event} (h : Old x) : ∀ e ∈ [x], Old e := fun e he => by rw [List.mem_singleton.1 he]; exact h

/-- How much is left to do. -/
def work (q : List QEntry) : Nat := (q.map fun e => e.n1 + 1).sum

theorem work_set {e : QEntry} : ∀ {q : List QEntry}, (∀ x ∈ q, x.id = e.id → e.n1 ≤ x.n1) →
    work (setEntry q e) ≤ work q ∧ ((∃ x ∈ q, x.id = e.id ∧ e.n1 < x.n1) → work (setEntry q e) < work q)
  | [], _ => ⟨Nat.le_refl _, by rintro ⟨x, h, _⟩; cases h⟩
  | y :: q, h => by
    obtain ⟨ih1, ih2⟩ := work_set (q := q) fun x hx => h x (.tail _ hx)
    have hy := h y (.head _)
    have e1 : work (setEntry (y :: q) e) = (if y.id = e.id then e else y).n1 + 1 + work (setEntry q e) := rfl
    have e2 : work (y :: q) = y.n1 + 1 + work q := rfl
    have hle : (if y.id = e.id then e else y).n1 ≤ y.n1 := by
      split
      · rename_i hi; exact hy hi
      · exact Nat.le_refl _
    rw [e1, e2]
    refine ⟨by omega, ?_⟩
    rintro ⟨x, hx, hi, hl⟩
    rcases List.mem_cons.1 hx with rfl | hx
    · rw [if_pos hi]; omega
    · have := ih2 ⟨x, hx, hi, hl⟩; omega

theorem work_filter {p : QEntry → Bool} : ∀ {q : List QEntry}, work (q.filter p) ≤ work q ∧
    ((∃ x ∈ q, p x = false) → work (q.filter p) < work q)
  | [] => ⟨Nat.le_refl _, by rintro ⟨x, h, _⟩; cases h⟩
  | y :: q => by
    obtain ⟨ih1, ih2⟩ := work_filter (p := p) (q := q)
    have e2 : work (y :: q) = y.n1 + 1 + work q := rfl
    cases hp : p y with
    | true =>
      rw [List.filter_cons_of_pos hp]
      have e1 : work (y :: q.filter p) = y.n1 + 1 + work (q.filter p) := rfl
      refine ⟨by omega, ?_⟩
      rintro ⟨x, hx, hi⟩
      rcases List.mem_cons.1 hx with rfl | hx
      · rw [hp] at hi; cases hi
      · have := ih2 ⟨x, hx, hi⟩; omega
    | false =>
      rw [List.filter_cons_of_neg (by simp [hp])]
      exact ⟨by omega, fun _ => by omega⟩

theorem peerChg_queues (ep : Ep) (fi s) : (ep.peerChg fi s).reqs = ep.reqs ∧ (ep.peerChg fi s).resps = ep.resps ∧
    (ep.peerChg fi s).now = ep.now ∧ ∃ l, (ep.peerChg fi s).log = l ++ ep.log ∧ ∀ e ∈ l, Old e := by
  unfold Ep.peerChg
  split
  · exact ⟨rfl, rfl, rfl, [], rfl, old_nil⟩
  · split
    · refine ⟨rfl, rfl, rfl, [_], rfl, old_one (old_peer _ _)⟩
    · exact ⟨rfl, rfl, rfl, [], rfl, old_nil⟩

theorem queueDel_queues {ep ep' : Ep} {id} (h : ep.queueDel id = .ok ep') :
    ep'.reqs = (ep.reqs.filter fun e => e.id ≠ id) ∧ ep'.resps = (ep.resps.filter fun e => e.id ≠ id) ∧ ep'.now = ep.now ∧
    ep'.log = .freed id :: ep.log := by
  unfold Ep.queueDel at h
  obtain ⟨ep1, h1, h2⟩ := Res.bind_eq_ok h
  obtain ⟨ps, t, us, rfl⟩ := releaseUses_only h1
  cases h2
  exact ⟨rfl, rfl, rfl, rfl⟩

/-- The step leaves the queues with not more, `strict`: with less, to do. -/
structure Less (strict : Prop) (ep ep' : Ep) : Prop where
  now : ep'.now = ep.now
  log : ∃ l, ep'.log = l ++ ep.log ∧ ∀ e ∈ l, Old e
  le : work ep'.reqs + work ep'.resps ≤ work ep.reqs + work ep.resps
  lt : strict → work ep'.reqs + work ep'.resps < work ep.reqs + work ep.resps

theorem Less.refl {P : Prop} (h : ¬ P) (ep : Ep) : Less P ep ep := ⟨rfl, ⟨[], rfl, old_nil⟩, Nat.le_refl _, fun hp => absurd hp h⟩

theorem Less.del {ep ep' : Ep} {id P} (h : ep.queueDel id = .ok ep') (hm : P → ∃ e ∈ ep.reqs ++ ep.resps, e.id = id) :
    Less P ep ep' := by
  obtain ⟨h1, h2, h3, h4⟩ := queueDel_queues h
  have w1 := work_filter (p := fun e => decide (e.id ≠ id)) (q := ep.reqs)
  have w2 := work_filter (p := fun e => decide (e.id ≠ id)) (q := ep.resps)
  refine ⟨h3, ⟨[_], h4, old_one (old_freed _)⟩, by rw [h1, h2]; omega, ?_⟩
  · intro hp
    obtain ⟨e, he, hi⟩ := hm hp
    rw [h1, h2]
    rcases List.mem_append.1 he with he | he
    · have := w1.2 ⟨e, he, by simp [hi]⟩; omega
    · have := w2.2 ⟨e, he, by simp [hi]⟩; omega

theorem respTimer_less {ep ep' : Ep} {id} (h : ep.respTimer id = .ok ep') :
    Less (∃ e, ep.resps.find? (fun e => e.id = id) = some e ∧ e.expired ep.now = true) ep ep' := by
  unfold Ep.respTimer at h
  split at h
  · cases h
    rename_i hn
    exact .refl (by rintro ⟨e, h1, _⟩; rw [hn] at h1; cases h1) _
  · rename_i e hf
    split at h
    · cases h
      rename_i hx
      refine .refl ?_ _
      rintro ⟨e', h1, h2⟩
      rw [hf] at h1
      cases h1
      exact hx h2
    · split at h
      · cases h
      · refine .del h fun _ => ⟨e, List.mem_append_right _ (List.mem_of_find?_eq_some hf), ?_⟩
        simpa using List.find?_some hf

/-- The same, one after the other. -/
theorem Less.trans {P Q R : Prop} {a b c : Ep} (h : Less P a b) (h' : Less Q b c) (hr : R → P ∨ Q) : Less R a c := by
  obtain ⟨l, h1, h2⟩ := h.log
  obtain ⟨l', h3, h4⟩ := h'.log
  refine ⟨h'.now.trans h.now, ⟨l' ++ l, by rw [h3, h1, List.append_assoc], ?_⟩, Nat.le_trans h'.le h.le, ?_⟩
  · intro e he
    exact (List.mem_append.1 he).elim (h4 e) (h2 e)
  · intro r
    have := h.le
    have := h'.le
    rcases hr r with p | q
    · have := h.lt p; omega
    · have := h'.lt q; omega

theorem sendMsg_old {ep : Ep} {id m io r} (h : ep.sendMsg .retrans id m io = .ok r) :
    r.1.reqs = ep.reqs ∧ r.1.resps = ep.resps ∧ r.1.now = ep.now ∧ (∃ l, r.1.log = l ++ ep.log ∧ ∀ e ∈ l, Old e) := by
  rcases sendMsg_ok h with ⟨o, _, _, _, rfl⟩ | ⟨l, e, enc, hl, _, rfl⟩
  · exact ⟨rfl, rfl, rfl, [_], rfl, old_one (old_retrans ..)⟩
  · rcases hl with ⟨rfl, _⟩ | ⟨o, _, rfl⟩
    · exact ⟨rfl, rfl, rfl, [], rfl, old_nil⟩
    · exact ⟨rfl, rfl, rfl, [_], rfl, old_one (old_retrans ..)⟩

theorem retrans_less {ep : Ep} {e : QEntry} {io} {r : Ep × Bool} (h : ep.retrans e io = .ok r)
    (hm : ∃ x ∈ ep.reqs, x.id = e.id) (hall : ∀ x ∈ ep.reqs, x.id = e.id → x.n1 = e.n1) : Less (r.2 = true) ep r.1 := by
  unfold Ep.retrans at h
  split at h
  · cases h
    exact .refl (by simp) _
  · rename_i hn
    obtain ⟨x, h1, h2⟩ := Res.bind_eq_ok h
    obtain ⟨ep1, m, rc⟩ := x
    obtain ⟨g1, g2, g3, g4⟩ := sendMsg_old h1
    dsimp only at g1 g2 g3 g4 h2
    obtain ⟨x0, hx0, hi0⟩ := hm
    have key : ∀ t, work (setEntry ep1.reqs { e with m, n1 := e.n1 - 1, timer := t }) < work ep.reqs := by
      intro t
      rw [g1]
      refine (work_set (e := { e with m, n1 := e.n1 - 1, timer := t }) ?_).2 ⟨x0, hx0, hi0, ?_⟩
      · intro x hx hi
        have := hall x hx hi
        show e.n1 - 1 ≤ x.n1
        omega
      · have := hall x0 hx0 hi0
        show e.n1 - 1 < x0.n1
        omega
    split at h2
    · cases h2
      have := key e.timer
      exact ⟨g3, g4, by simp only [g2]; omega, fun h => by cases h⟩
    · cases h2
      have := key (some (ep1.now + ep1.t1))
      exact ⟨g3, g4, by simp only [g2]; omega, fun _ => by simp only [g2]; omega⟩

theorem assocNull_less {ep ep' : Ep} {ctx} (h : ep.assocResp ctx none .ok = .ok ep') : Less False ep ep' := by
  unfold Ep.assocResp at h
  split at h
  · cases h
  · split at h
    · cases h
    · cases h
      obtain ⟨h1, h2, h3, h4⟩ := peerChg_queues ep _ PState.waitRetry
      exact ⟨h3, h4, by rw [h1, h2]; exact Nat.le_refl _, False.elim⟩

theorem reqTimer_less {ep ep' : Ep} {id io} (hnd : (ep.reqs.map (·.id)).Nodup) (h : ep.reqTimer id io .ok = .ok ep') :
    Less (∃ e, ep.reqs.find? (fun e => e.id = id) = some e ∧ e.expired ep.now = true) ep ep' := by
  unfold Ep.reqTimer at h
  split at h
  · cases h
    rename_i hn
    exact .refl (by rintro ⟨e, h1, _⟩; rw [hn] at h1; cases h1) _
  · rename_i e hf
    have hmem := List.mem_of_find?_eq_some hf
    have hid : e.id = id := by simpa using List.find?_some hf
    split at h
    · cases h
      rename_i hx
      refine .refl ?_ _
      rintro ⟨e', h1, h2⟩
      rw [hf] at h1
      cases h1
      exact hx h2
    · split at h
      · cases h
      · dsimp only at h
        obtain ⟨r, h1, h2⟩ := Res.bind_eq_ok h
        obtain ⟨ep1, keep⟩ := r
        dsimp only at h2
        have huniq : ∀ x ∈ ep.reqs, x.id = e.id → x = e := by
          intro x hx hi
          have a := look_of_mem hnd hx
          have b := look_of_mem hnd hmem
          rw [hi, b] at a
          cases a
          rfl
        have w0 : Less False ep { ep with reqs := setEntry ep.reqs { e with timer := none } } := by
          refine ⟨rfl, ⟨[], rfl, old_nil⟩, ?_, False.elim⟩
          have := (work_set (q := ep.reqs) (e := { e with timer := none }) fun x hx hi => by
            rw [huniq x hx hi]; exact Nat.le_refl _).1
          exact Nat.add_le_add_right this _
        have hin : ∀ x ∈ setEntry ep.reqs { e with timer := none }, x.id = e.id → x = { e with timer := none } := by
          intro x hx hi
          obtain ⟨y, hy, rfl⟩ := List.mem_map.1 hx
          by_cases hye : y.id = e.id
          · exact if_pos hye
          · rw [if_neg hye] at hi; exact absurd hi hye
        have w1 := retrans_less h1 ⟨{ e with timer := none }, List.mem_map.2 ⟨e, hmem, if_pos rfl⟩, rfl⟩
          fun x hx hi => by rw [hin x hx hi]
        have w01 := w0.trans w1 (R := keep = true) .inr
        split at h2
        · rename_i hk
          cases h2
          exact w01.trans (Less.refl not_false ep') fun _ => .inl hk
        · obtain ⟨ep2, h3, h4⟩ := Res.bind_eq_ok h2
          have w2 : Less False ep1 ep2 := by
            split at h3
            · unfold Ep.using at h3
              obtain ⟨ep3, h5, h6⟩ := Res.bind_eq_ok h3
              cases h6
              have w3 : Less False ep1 { ep1.note (.respCb id none ep1.now) with busy := id :: (ep1.note (.respCb id none ep1.now)).busy } := by
                exact ⟨rfl, ⟨[_], rfl, old_one (old_respCb ..)⟩, Nat.le_refl _, False.elim⟩
              have w4 : Less False { ep1.note (.respCb id none ep1.now) with busy := id :: (ep1.note (.respCb id none ep1.now)).busy } ep3 := by
                split at h5
                · exact assocNull_less h5
                · cases h5; exact .refl not_false _
              exact (w3.trans w4 (R := False) False.elim).trans (b := ep3) (Q := False) ⟨rfl, ⟨[], rfl, old_nil⟩, Nat.le_refl _, False.elim⟩
                False.elim
            · cases h3
              exact .refl not_false _
          split at h4
          · rename_i hany
            obtain ⟨x, hx, hi⟩ := List.any_eq_true.1 hany
            exact (w01.trans w2 (R := False) False.elim).trans
              (Less.del (P := True) h4 fun _ => ⟨x, List.mem_append_left _ hx, by simpa using hi⟩) fun _ => .inr trivial
          · cases h4

/-! ### C114: time passes, and then the endpoint is at rest -/

theorem _root_.Verif.Spec.Idles.old' {ep ep' : Ep} (hp : Punctual ep) (h : Idles ep ep') :
    ep.now ≤ ep'.now ∧ ∃ l, ep'.log = l ++ ep.log ∧ ∀ e ∈ l, Old e := by
  induction h with
  | refl => exact ⟨Nat.le_refl _, [], rfl, old_nil⟩
  | advance ms h0 hq ih => exact ⟨Nat.le_trans ih.1 (Nat.le_add_right ..), ih.2⟩
  | @request a b id io h0 hs ih =>
    have hl := reqTimer_less (Spec.Idles.punctual' hp h0).reached.inv.nodupReqs hs
    obtain ⟨l, h1, h2⟩ := ih.2
    obtain ⟨l', h3, h4⟩ := hl.log
    exact ⟨by rw [hl.now]; exact ih.1, l' ++ l, by rw [h3, h1, List.append_assoc], fun e he => (List.mem_append.1 he).elim (h4 e) (h2 e)⟩
  | @response a b id h0 hs ih =>
    have hl := respTimer_less hs
    obtain ⟨l, h1, h2⟩ := ih.2
    obtain ⟨l', h3, h4⟩ := hl.log
    exact ⟨by rw [hl.now]; exact ih.1, l' ++ l, by rw [h3, h1, List.append_assoc], fun e he => (List.mem_append.1 he).elim (h4 e) (h2 e)⟩

/-- C114: if from some point on nothing is sent or received, and more than (N1 + 1) * T1 and more than KEEP_RESP passes, in which
the timers are handled on time, then nothing is waited for and no response is kept any more. -/
theorem C114_comes_to_rest {ep ep' : Ep} (h : Punctual ep) {n v k} (hn : ∀ id n1 t1 m, Event.passed id n1 t1 m ∈ ep.log → n1 ≤ n)
    (hc : ∀ a b c, Event.config a b c ∈ ep.log → b ≤ v ∧ c ≤ k) (hi : Idles ep ep')
    (ht : ep.now + (n + 1) * v < ep'.now ∧ ep.now + k < ep'.now) : ep'.isBusy = false := by
  obtain ⟨_, l, h1, h2⟩ := Spec.Idles.old' h hi
  refine C114_at_rest (n := n) (v := v) (k := k) (Spec.Idles.punctual' h hi) ?_ ?_ ?_
  · intro id n1 t1 m hm
    rw [h1] at hm
    exact (List.mem_append.1 hm).elim (fun hm => absurd rfl ((h2 _ hm).passed _ _ _ _)) (hn _ _ _ _)
  · intro a b c hm
    rw [h1] at hm
    exact (List.mem_append.1 hm).elim (fun hm => absurd rfl ((h2 _ hm).config _ _ _)) (hc _ _ _)
  · intro id r o t0 hm
    rw [h1] at hm
    rcases List.mem_append.1 hm with hm | hm
    · exact absurd rfl ((h2 _ hm).tx _ _ _ _ _)
    · have := h.reached.sendPast _ hm id t0 (if_pos rfl)
      omega

/-- The timer that expires first. -/
theorem first_timer : ∀ {q : List QEntry}, q ≠ [] → (∀ e ∈ q, e.timer.isSome) →
    ∃ e ∈ q, ∃ d, e.timer = some d ∧ ∀ x ∈ q, ∀ d', x.timer = some d' → d ≤ d'
  | [], h, _ => absurd rfl h
  | [e], _, ht => by
    obtain ⟨d, hd⟩ := Option.isSome_iff_exists.1 (ht e (.head _))
    refine ⟨e, .head _, d, hd, ?_⟩
    intro x hx d' hd'
    rw [List.mem_singleton.1 hx, hd] at hd'
    cases hd'
    exact Nat.le_refl _
  | e :: y :: q, _, ht => by
    obtain ⟨d, hd⟩ := Option.isSome_iff_exists.1 (ht e (.head _))
    obtain ⟨x, hx, d2, hd2, hmin⟩ := first_timer (q := y :: q) (by simp) fun e he => ht e (.tail _ he)
    by_cases hle : d ≤ d2
    · refine ⟨e, .head _, d, hd, ?_⟩
      intro z hz d' hd'
      rcases List.mem_cons.1 hz with rfl | hz
      · rw [hd] at hd'; cases hd'; exact Nat.le_refl _
      · exact Nat.le_trans hle (hmin z hz d' hd')
    · refine ⟨x, .tail _ hx, d2, hd2, ?_⟩
      intro z hz d' hd'
      rcases List.mem_cons.1 hz with rfl | hz
      · rw [hd] at hd'; cases hd'; omega
      · exact hmin z hz d' hd'

theorem _root_.Verif.Spec.Idles.trans' {a b c : Ep} (h : Idles a b) (h' : Idles b c) : Idles a c := by
  induction h' with
  | refl => exact h
  | advance ms _ hq ih => exact .advance ms ih hq
  | request id io _ hs ih => exact .request id io ih hs
  | response id _ hs ih => exact .response id ih hs

theorem time_passes {own : Nat → Prop} {nid : NodeId} (hn : InRange (.nodeId nid)) (io : Bool) (T : Nat) : ∀ (w : Nat) (ep : Ep), Punctual ep →
    Calm own nid ep → work ep.reqs + work ep.resps ≤ w → ep.now ≤ T → ∃ ep', Idles ep ep' ∧ ep'.now = T := by
  intro w
  induction w with
  | zero =>
    intro ep hp hc hw hT
    refine ⟨_, .advance (T - ep.now) .refl ?_, by dsimp only; omega⟩
    intro e he
    have : ∀ q : List QEntry, work q = 0 → q = [] := by
      intro q hq
      cases q with
      | nil => rfl
      | cons x q =>
        have : work (x :: q) = x.n1 + 1 + work q := rfl
        omega
    rw [this ep.reqs (by omega), this ep.resps (by omega)] at he
    cases he
  | succ w ih =>
    intro ep hp hc hw hT
    by_cases hq : ep.reqs ++ ep.resps = []
    · refine ⟨_, .advance (T - ep.now) .refl ?_, by dsimp only; omega⟩
      intro e he
      rw [hq] at he
      cases he
    · have htim := C53_queues hp.reached
      obtain ⟨e, he, d, hd, hmin⟩ := first_timer hq fun e he =>
        (List.mem_append.1 he).elim (fun h => (htim.1 e h).2) fun h => (htim.2 e h).2
      have hnow : ep.now ≤ d := by
        rcases List.mem_append.1 he with he | he
        · obtain ⟨_, _, _, _, g⟩ := hp.timeInv.reqs e he
          exact (g d hd).2 trivial
        · obtain ⟨_, _, _, _, g⟩ := hp.timeInv.resps e he
          exact (g d hd).2 trivial
      by_cases hdT : T ≤ d
      · refine ⟨_, .advance (T - ep.now) .refl ?_, by dsimp only; omega⟩
        intro x hx d' hd'
        have := hmin x hx d' hd'
        omega
      · have hadv : ∀ x ∈ ep.reqs ++ ep.resps, ∀ d', x.timer = some d' → ep.now + (d - ep.now) ≤ d' := by
          intro x hx d' hd'
          have := hmin x hx d' hd'
          omega
        have hp1 := Punctual.advance (d - ep.now) hp hadv
        have i1 : Idles ep { ep with now := ep.now + (d - ep.now) } := .advance _ .refl hadv
        have ed : ep.now + (d - ep.now) = d := by omega
        rw [ed] at hp1 i1
        obtain ⟨_, hs1, hc1⟩ := step_total hn hp.reached.both hc hp.reached.busy (op := .advance (d - ep.now)) trivial
        have hs1 : Res.ok { ep with now := ep.now + (d - ep.now) } = Res.ok _ := hs1
        rw [ed] at hs1
        cases hs1
        rcases List.mem_append.1 he with he | he
        · obtain ⟨ep2, hs2, hc2⟩ := step_total hn hp1.reached.both hc1 hp1.reached.busy (op := .reqTimer e.id io .done) trivial
          have hl := reqTimer_less hp1.reached.inv.nodupReqs hs2
          have hlt := hl.lt ⟨e, look_of_mem hp1.reached.inv.nodupReqs he, by simp [QEntry.expired, hd]⟩
          have hle : ep2.now ≤ T := by rw [hl.now]; dsimp only; omega
          obtain ⟨ep3, i3, e3⟩ := ih ep2 (.op _ hp1 (fun _ h => by cases h) hs2) hc2 (by dsimp only at hlt; omega) hle
          exact ⟨ep3, Spec.Idles.trans' (.request e.id io i1 hs2) i3, e3⟩
        · obtain ⟨ep2, hs2, hc2⟩ := step_total hn hp1.reached.both hc1 hp1.reached.busy (op := .respTimer e.id) trivial
          have hl := respTimer_less hs2
          have hlt := hl.lt ⟨e, look_of_mem hp1.reached.inv.nodupResps he, by simp [QEntry.expired, hd]⟩
          have hle : ep2.now ≤ T := by rw [hl.now]; dsimp only; omega
          obtain ⟨ep3, i3, e3⟩ := ih ep2 (.op _ hp1 (fun _ h => by cases h) hs2) hc2 (by dsimp only at hlt; omega) hle
          exact ⟨ep3, Spec.Idles.trans' (.response e.id i1 hs2) i3, e3⟩

/-- C114: timers can be handled on time: after any history that observes the rules of C72, in which they were, any time can be
reached by letting time pass and handling timers when they expire, whether transmissions succeed or not. In particular no timer
that is handled starts again and again at the same time. -/
theorem C114_time_passes {own : Nat → Prop} {cfg : EpCfg} {ops : List Op} {n1 t1 keepResp unixTime now : Nat} {ep : Ep}
    (hn : InRange (.nodeId cfg.nodeId)) (hops : ∀ op ∈ ops, op.Tame own cfg.nodeId)
    (h : exec ops (Ep.create cfg n1 t1 keepResp unixTime now) = .ok ep) (hp : Punctual ep) (io : Bool) {T : Nat} (hT : ep.now ≤ T) :
    ∃ ep', Idles ep ep' ∧ ep'.now = T :=
  time_passes hn io T _ ep hp (exec_state hn hops n1 t1 keepResp unixTime now h).2 (Nat.le_refl _) hT

/-! #### Examples (N1 = 2, T1 = 100, KEEP_RESP = 1000) -/

/-- The request of the example, retransmitted twice; 300 ms after it was sent, it is still waited for. -/
example : ∃ ep r o, exec (exSend ++ exTimer ++ exTimer ++ [.advance 100]) exEp = .ok ep ∧ Punctual ep ∧ ep.pending 0 ∧
    Event.send .tx 0 r o true 0 ∈ ep.log ∧ (∃ t1 m, Event.passed 0 2 t1 m ∈ ep.log) ∧
    (∀ a b c, Event.config a b c ∈ ep.log → b ≤ 100 ∧ c ≤ 1000) ∧ ep.now = 0 + (2 + 1) * 100 := by
  refine ⟨_, _, _, rfl, Punctual.exec (ops := exSend ++ exTimer ++ exTimer ++ [.advance 100]) (ep := exEp) (.create ..) rfl rfl,
    ⟨_, .head _, rfl⟩, .tail _ (.tail _ (.tail _ (.head _))), ⟨_, _, .tail _ (.tail _ (.tail _ (.tail _ (.head _))))⟩, ?_, rfl⟩
  intro a b c h
  rcases List.mem_cons.1 h with h | h
  · cases h
  rcases List.mem_cons.1 h with h | h
  · cases h
  rcases List.mem_cons.1 h with h | h
  · cases h
  rcases List.mem_cons.1 h with h | h
  · cases h
  rcases List.mem_cons.1 h with h | h
  · cases h
  cases List.mem_singleton.1 h
  exact ⟨Nat.le_refl _, Nat.le_refl _⟩

/-- A history of nothing but time and timers. -/
theorem idles_exec : ∀ (ops : List Op) (ep0 ep ep' : Ep), Idles ep0 ep → onTime ops ep = true →
    (ops.all fun | .advance _ => true | .reqTimer _ _ .done => true | .respTimer _ => true | _ => false) = true →
    exec ops ep = .ok ep' → Idles ep0 ep'
  | [], ep0, ep, ep', h0, _, _, h => by cases h; exact h0
  | op :: ops, ep0, ep, ep', h0, ho, ha, h => by
    obtain ⟨ep1, h1, h2⟩ := Res.bind_eq_ok h
    rw [List.all_cons, Bool.and_eq_true] at ha
    cases op with
    | advance ms =>
      cases h1
      simp only [onTime, Bool.and_eq_true] at ho
      refine idles_exec ops ep0 _ ep' (.advance ms h0 fun e he d hd => ?_) ho.2 ha.2 h2
      have := List.all_eq_true.mp ho.1 e he
      rw [hd] at this
      simpa using this
    | reqTimer id io a =>
      cases a with
      | done =>
        simp only [onTime, h1] at ho
        exact idles_exec ops ep0 _ ep' (.request id io h0 h1) ho ha.2 h2
      | _ => cases ha.1
    | respTimer id =>
      simp only [onTime, h1] at ho
      exact idles_exec ops ep0 _ ep' (.response id h0 h1) ho ha.2 h2
    | _ => cases ha.1

def exIdle : List Op := exTimer ++ exTimer ++ exTimer ++ [.advance 701]

/-- C114_comes_to_rest and C114_time_passes have instances: a request is sent, and 1001 ms later its sender is at rest. -/
example : ∃ ep ep', exec exSend exEp = .ok ep ∧ Punctual ep ∧ ep.isBusy = true ∧ Idles ep ep' ∧
    (∀ id n1 t1 m, Event.passed id n1 t1 m ∈ ep.log → n1 ≤ 2) ∧ (∀ a b c, Event.config a b c ∈ ep.log → b ≤ 100 ∧ c ≤ 1000) ∧
    (ep.now + (2 + 1) * 100 < ep'.now ∧ ep.now + 1000 < ep'.now) := by
  refine ⟨_, _, rfl, Punctual.exec (ops := exSend) (ep := exEp) (.create ..) rfl rfl, rfl,
    idles_exec exIdle _ _ _ .refl rfl rfl rfl, ?_, ?_, by decide⟩
  · intro id n1 t1 m h
    rcases List.mem_cons.1 h with h | h
    · cases h
    rcases List.mem_cons.1 h with h | h
    · cases h
    rcases List.mem_cons.1 h with h | h
    · cases h; exact Nat.le_refl _
    cases List.mem_singleton.1 h
  · intro a b c h
    rcases List.mem_cons.1 h with h | h
    · cases h
    rcases List.mem_cons.1 h with h | h
    · cases h
    rcases List.mem_cons.1 h with h | h
    · cases h
    cases List.mem_singleton.1 h
    exact ⟨Nat.le_refl _, Nat.le_refl _⟩

/-- The bound of C114_size can be reached: two requests, sent 0 and 100 ms ago. -/
example : ∃ ep, exec (exSend ++ [.advance 100, .app (.tx exReq true .done .done)]) exEp = .ok ep ∧ Punctual ep ∧
    ep.reqs.length + ep.resps.length = 2 ∧ (ep.log.filter fun e => SentWithin 1000 ep.now e).length = 2 := by
  refine ⟨_, rfl, Punctual.exec (ops := exSend ++ [.advance 100, .app (.tx exReq true .done .done)]) (ep := exEp) (.create ..) rfl rfl,
    rfl, ?_⟩
  decide +kernel

/-- Timers that are not handled on time: after any time the request is still waited for. -/
example (ms : Nat) : ∃ ep, exec (exSend ++ [.advance ms]) exEp = .ok ep ∧ Reached ep ∧ ep.pending 0 ∧ ep.now = 0 + ms := by
  have h : exec (exSend ++ [.advance ms]) exEp = .ok _ := rfl
  exact ⟨_, h, .op (.advance ms) (.op (exSend.head (by decide)) exEp_reached rfl) rfl, ⟨_, .head _, rfl⟩, rfl⟩

end Verif.Props
