/-
Properties of the endpoint: failures are not premature (C87).
-/
import Verif.PropsTimed

namespace Verif
open Props

/-! ### What became of a message, according to its life -/

/-- A transmission of the message failed. -/
def SendFailed (id : Nat) (log : List Event) : Prop := ∃ why r o t, Event.send why id r o false t ∈ log

/-- The message got a response: resp_cb() or rx_msg_cb() was called with it. -/
def GotResponse (id : Nat) (log : List Event) : Prop :=
  (∃ k t, Event.respCb id (some k) t ∈ log) ∨ ∃ k, Event.dispatch k (some id) ∈ log

/-- The last transmission was made, and then the message was given up. -/
def GivenUp (id : Nat) (log : List Event) : Prop :=
  ∃ l2 e l1 n1 t1 m o, log = l2 ++ e :: l1 ∧ Life id l1 (.waiting n1 t1 m o 0) ∧ (e = .freed id ∧ m.hasCb = false ∨ ∃ t, e = .respCb id none t)

/-- Nothing was sent. -/
def Unsent (id : Nat) (log : List Event) : Prop := sentTimes id log = []

/-- What the log says about a message in a certain stage. -/
def Outcome (id : Nat) (log : List Event) : Stage → Prop
  | .unseen | .passed .. | .refused .. | .lost .. => Unsent id log
  | .reported n1 t1 _ sent => (sent = false → Unsent id log) ∧ (sent = true → n1 = 0 ∨ t1 = 0)
  | .leaked n1 t1 _ => n1 = 0 ∨ t1 = 0
  | .stuck .. => SendFailed id log
  | .gaveUp .. => (SendFailed id log ∨ GivenUp id log) ∧ ∃ t, Event.respCb id none t ∈ log
  | .called .. => GotResponse id log
  | .dispatched .. => GotResponse id log
  | .kept _ _ m _ => m.isResponse = true
  | .dropped .. => Event.dropped id ∈ log
  | .over _ _ m _ => Event.dropped id ∈ log ∨ Unsent id log ∨ m.isResponse = true ∨ GotResponse id log ∨ SendFailed id log ∨ GivenUp id log
  | _ => True

theorem GivenUp.cons {id log} (e : Event) (h : GivenUp id log) : GivenUp id (e :: log) := by
  obtain ⟨l2, x, l1, n1, t1, m, o, rfl, h⟩ := h
  exact ⟨e :: l2, x, l1, n1, t1, m, o, rfl, h⟩

theorem SendFailed.cons {id log} (e : Event) (h : SendFailed id log) : SendFailed id (e :: log) := by
  obtain ⟨w, r, o, t, h⟩ := h
  exact ⟨w, r, o, t, .tail _ h⟩

theorem GotResponse.cons {id log} (e : Event) (h : GotResponse id log) : GotResponse id (e :: log) := by
  rcases h with ⟨k, t, h⟩ | ⟨k, h⟩
  · exact .inl ⟨k, t, .tail _ h⟩
  · exact .inr ⟨k, .tail _ h⟩

theorem Unsent.cons {id log} {e : Event} (h : Unsent id log) (he : e.sentAt id = none) : Unsent id (e :: log) := by
  unfold Unsent
  rw [sentTimes_cons, he]
  exact h

theorem Outcome.cons {id log s} {e : Event} (h : Outcome id log s) (he : e.sentAt id = none) : Outcome id (e :: log) s := by
  cases s
  case reported => exact ⟨fun hs => (h.1 hs).cons he, h.2⟩
  case stuck => exact SendFailed.cons e h
  case gaveUp => exact ⟨h.1.imp (.cons e) (.cons e), h.2.imp fun _ => .tail _⟩
  case called => exact GotResponse.cons e h
  case dispatched => exact GotResponse.cons e h
  case dropped => exact .tail _ h
  case over =>
    exact h.imp (.tail _) (.imp (fun h => h.cons he) (.imp (fun h => h) (.imp (.cons e) (.imp (.cons e) (.cons e)))))
  all_goals first | exact Unsent.cons h he | exact h

theorem Life.outcome {id log s} (h : Life id log s) : Outcome id log s := by
  induction h with
  | nil => rfl
  | @cons l s e s' hl hn ih =>
    cases hn
    case other ha => exact ih.cons (sentAt_not_about ha)
    case pass => exact Unsent.cons ih rfl
    case refuse => exact Unsent.cons ih rfl
    case send => trivial
    case reportNotSent => exact ⟨fun _ => Unsent.cons ih rfl, fun h => (by cases h)⟩
    case reportRefused => exact ⟨fun _ => Unsent.cons ih rfl, fun h => (by cases h)⟩
    case reportSent h => exact ⟨fun h => (by cases h), fun _ => h⟩
    case loseNotSent => exact Unsent.cons ih rfl
    case loseRefused => exact Unsent.cons ih rfl
    case loseReported => exact Unsent.cons (ih.1 rfl) rfl
    case fail => exact .inr (.inl (Unsent.cons ih rfl))
    case queueReq => trivial
    case queueResp h _ _ => exact h
    case noQueue h => exact h
    case noQueueReported => exact ih.2 rfl
    case retrans => trivial
    case retransFail => exact ⟨_, _, _, _, .head _⟩
    case giveUp => exact ⟨.inr ⟨[], _, l, _, _, _, _, rfl, hl, .inr ⟨_, rfl⟩⟩, _, .head _⟩
    case giveUpStuck => exact ⟨.inl (SendFailed.cons _ ih), _, .head _⟩
    case giveUpFree => exact .inr (.inr (.inr (.inr (ih.1.imp (.cons _) (.cons _)))))
    case giveUpNoCb h => exact .inr (.inr (.inr (.inr (.inr ⟨[], _, l, _, _, _, _, rfl, hl, .inl ⟨rfl, h⟩⟩))))
    case giveUpStuckNoCb => exact .inr (.inr (.inr (.inr (.inl (SendFailed.cons _ ih)))))
    case match_ => trivial
    case call => exact .inl ⟨_, _, .head _⟩
    case callMatched => exact .inl ⟨_, _, .head _⟩
    case dispatch => exact .inr ⟨_, .head _⟩
    case dispatchMatched => exact .inr ⟨_, .head _⟩
    case dispatchCalled => exact .inr ⟨_, .head _⟩
    case freeCalled => exact .inr (.inr (.inr (.inl (GotResponse.cons _ ih))))
    case freeDispatched => exact .inr (.inr (.inr (.inl (GotResponse.cons _ ih))))
    case cached => exact ih
    case expire => exact .inr (.inr (.inl ih))
    case dropReq => exact .head _
    case dropResp => exact .head _
    case dropFree => exact .inl (.tail _ ih)

/-! ### Transmissions are spaced -/

theorem timersOf_least {v : Nat} : ∀ {l : List Event} {n1 t k}, (∀ a b c, Event.config a b c ∈ l ++ [.config n1 t k] → v ≤ b) →
    v ≤ (timersOf (l ++ [.config n1 t k])).1
  | [], n1, t, k, h => h n1 t k (.head _)
  | e :: l, n1, t, k, h => by
    have ih := timersOf_least (l := l) fun a b c hm => h a b c (.tail _ hm)
    cases e
    case config a b c => exact h a b c (.head _)
    all_goals exact ih

theorem lastSent_none {id} : ∀ {l : List Event}, lastSent id l = none ↔ sentTimes id l = []
  | [] => by simp [lastSent, sentTimes]
  | e :: l => by
    rw [lastSent, sentTimes_cons]
    cases e.sentAt id with
    | none => exact lastSent_none
    | some t => simp

/-- If T1 is always at least `v`, the last transmission is at least as many times `v` after the first one as there were others. -/
theorem sentTimes_spaced {id v : Nat} {n1 t k} : ∀ {l : List Event} {s}, Life id (l ++ [.config n1 t k]) s →
    AllTimely False (l ++ [.config n1 t k]) → (∀ a b c, Event.config a b c ∈ l ++ [.config n1 t k] → v ≤ b) →
    ∀ {t0 r o}, Event.send .tx id r o true t0 ∈ l ++ [.config n1 t k] →
    ∃ t' v' k', lastSent id (l ++ [.config n1 t k]) = some (t', v', k') ∧ v ≤ v' ∧
      t0 + (sentTimes id (l ++ [.config n1 t k])).length * v ≤ t' + v
  | [], s, _, _, _, _, _, _, h => by cases List.mem_singleton.1 h
  | e :: l, s, hl, ht, hc, t0, r, o, h0 => by
    rw [List.cons_append] at hl ht hc h0 ⊢
    obtain ⟨s0, hl0, hn⟩ := hl.uncons
    have hc' : ∀ a b c, Event.config a b c ∈ l ++ [.config n1 t k] → v ≤ b := fun a b c hm => hc a b c (.tail _ hm)
    have hv := timersOf_least hc'
    rw [sentTimes_cons, lastSent]
    cases hs : e.sentAt id with
    | none =>
      refine sentTimes_spaced hl0 ht.2 hc' (t0 := t0) (r := r) (o := o) ?_
      rcases List.mem_cons.1 h0 with rfl | h0
      · simp [Event.sentAt] at hs
      · exact h0
    | some te =>
      refine ⟨te, (timersOf (l ++ [.config n1 t k])).1, (timersOf (l ++ [.config n1 t k])).2, rfl, hv, ?_⟩
      have ht1 := ht.1
      unfold Event.sentAt at hs
      split at hs
      · rename_i i r' o' t2
        have hi : i = id := by
          by_cases h : i = id
          · exact h
          · rw [if_neg h] at hs; cases hs
        subst hi
        rw [if_pos rfl] at hs
        cases hs
        have hun : Unsent i (l ++ [.config n1 t k]) := by
          cases hn
          case other ha => exact absurd rfl ha
          case send => exact hl0.outcome
        rcases List.mem_cons.1 h0 with h0 | h0
        · cases h0
          rw [hun]
          simp
        · have hm : t0 ∈ sentTimes i (l ++ [.config n1 t k]) := List.mem_filterMap.2 ⟨_, h0, if_pos rfl⟩
          rw [hun] at hm
          cases hm
      · rename_i i r' o' t2
        have hi : i = id := by
          by_cases h : i = id
          · exact h
          · rw [if_neg h] at hs; cases hs
        subst hi
        rw [if_pos rfl] at hs
        cases hs
        have h0 : Event.send .tx i r o true t0 ∈ l ++ [.config n1 t k] := by
          rcases List.mem_cons.1 h0 with h0 | h0
          · cases h0
          · exact h0
        obtain ⟨t', v', k', g1, g2, g3⟩ := sentTimes_spaced hl0 ht.2 hc' h0
        obtain ⟨t1, v1, k1, h1, h2⟩ := ht1
        rw [g1] at h1
        simp only [Option.some.injEq, Prod.mk.injEq] at h1
        obtain ⟨rfl, rfl, rfl⟩ := h1
        have := h2.1
        simp only [Option.toList_some, List.cons_append, List.nil_append, List.length_cons, Nat.add_mul]
        omega
      · cases hs

/-! ### What is past -/

/-- The event reports something about message `id` to the application. -/
def Told (id : Nat) : Event → Prop
  | .respCb i _ _ => i = id
  | .setCtx _ req => req = some id
  | .dispatch _ req => req = some id
  | _ => False

/-- The application has not yet been told anything about a request that waits for its response. -/
def Stage.untold : Stage → Bool
  | .unseen | .passed .. | .refused .. | .sent .. | .waiting .. => true
  | _ => false

theorem Life.untold {id log s} (h : Life id log s) : (s.untold = true → ∀ e ∈ log, ¬ Told id e) ∧
    (∀ n1 t1 m o left, s = .waiting n1 t1 m o left → Event.returned id none ∈ log) := by
  induction h with
  | nil => exact ⟨fun _ _ h => (by cases h), fun _ _ _ _ _ h => (by cases h)⟩
  | @cons l s e s' hl hn ih =>
    have more : s.untold = true → ¬ Told id e → ∀ x ∈ e :: l, ¬ Told id x := by
      intro hs he x hx
      rcases List.mem_cons.1 hx with rfl | hx
      · exact he
      · exact ih.1 hs x hx
    cases hn
    case other ha =>
      have hne : ¬ Told id e := fun h => ha (by cases e <;> first | exact h | cases h)
      exact ⟨fun hs => more hs hne, fun _ _ _ _ _ hs => .tail _ (ih.2 _ _ _ _ _ hs)⟩
    case queueReq => exact ⟨fun _ => more rfl (fun h => h), fun _ _ _ _ _ _ => .head _⟩
    case retrans => exact ⟨fun _ => more rfl (fun h => h), fun _ _ _ _ _ _ => .tail _ (ih.2 _ _ _ _ _ rfl)⟩
    all_goals
      refine ⟨fun hs => ?_, fun _ _ _ _ _ hs => (by cases hs)⟩
      first
      | cases hs; done
      | exact more rfl (fun h => h)

/-- What happened is past: calls of resp_cb(), and the end of requests without one. -/
structure Elapsed (x : Ep × Ph) : Prop where
  cbs : ∀ id r t, Event.respCb id r t ∈ x.1.log → t ≤ x.1.now
  freed : ∀ l2 l1 id, x.1.log = l2 ++ .freed id :: l1 → Event.returned id none ∈ l1 →
    (∀ n1 t1 m, Event.passed id n1 t1 m ∈ x.1.log → m.isResponse = false) → Event.dropped id ∉ x.1.log →
    (∀ e ∈ l1, ¬ Told id e) → ∃ t v k, lastSent id l1 = some (t, v, k) ∧ t + v ≤ x.1.now

theorem Elapsed.more {a b : Ep × Ph} (h : Elapsed a) (l : List Event) (hl : b.1.log = l ++ a.1.log) (hnow : a.1.now ≤ b.1.now)
    (hcb : ∀ id r t, Event.respCb id r t ∈ l → t ≤ b.1.now)
    (hfr : ∀ l2 l1 id, l = l2 ++ .freed id :: l1 → Event.returned id none ∈ l1 ++ a.1.log →
      (∀ n1 t1 m, Event.passed id n1 t1 m ∈ b.1.log → m.isResponse = false) → Event.dropped id ∉ b.1.log →
      (∀ e ∈ l1 ++ a.1.log, ¬ Told id e) → ∃ t v k, lastSent id (l1 ++ a.1.log) = some (t, v, k) ∧ t + v ≤ b.1.now) : Elapsed b := by
  refine ⟨fun id r t hm => ?_, fun l2 l1 id hs hr hp hd ht => ?_⟩
  · rw [hl] at hm
    rcases List.mem_append.1 hm with hm | hm
    · exact hcb _ _ _ hm
    · exact Nat.le_trans (h.cbs _ _ _ hm) hnow
  · rw [hl] at hs
    rcases List.append_eq_append_iff.1 hs with ⟨m, rfl, hs'⟩ | ⟨m, rfl, hs'⟩
    · obtain ⟨t, v, k, g1, g2⟩ := h.freed m l1 id hs' hr (fun n1 t1 q hq => hp n1 t1 q (by rw [hl]; exact List.mem_append_right _ hq))
        (fun hq => hd (by rw [hl]; exact List.mem_append_right _ hq)) ht
      exact ⟨t, v, k, g1, Nat.le_trans g2 hnow⟩
    · cases m with
      | nil =>
        obtain ⟨t, v, k, g1, g2⟩ := h.freed [] l1 id hs'.symm hr (fun n1 t1 q hq => hp n1 t1 q (by rw [hl]; exact List.mem_append_right _ hq))
          (fun hq => hd (by rw [hl]; exact List.mem_append_right _ hq)) ht
        exact ⟨t, v, k, g1, Nat.le_trans g2 hnow⟩
      | cons x m =>
        rw [List.cons_append, List.cons.injEq] at hs'
        obtain ⟨rfl, rfl⟩ := hs'
        exact hfr l2 m id rfl hr hp hd ht

/-- A step in which nothing is freed. -/
theorem Elapsed.same {a b : Ep × Ph} (h : Elapsed a) (l : List Event) (hl : b.1.log = l ++ a.1.log) (hnow : a.1.now ≤ b.1.now)
    (hcb : ∀ id r t, Event.respCb id r t ∈ l → t ≤ b.1.now) (hfr : ∀ id, Event.freed id ∉ l) : Elapsed b :=
  h.more l hl hnow hcb fun l2 l1 id hx => absurd (by rw [hx]; simp) (hfr id)

/-- The small steps. -/
theorem Elapsed.step {a b : Ep × Ph} (h : Elapsed a) (ht : TimeInv False a) (hs : Micro a b) : Elapsed b := by
  have bnow : ∀ (ep : Ep) (m : PMsg), (ep.begun m).now = ep.now := by
    intro ep m
    unfold Ep.begun
    split <;> rfl
  have hnow := hs.now
  have refused : ∀ {ep : Ep} {why id m l}, Refused ep why id m l → ∀ {i r t}, Event.respCb i r t ∉ l := by
    rintro ep why id m l (⟨rfl, _⟩ | ⟨o, _, rfl⟩) i r t
    · simp
    · simp
  cases hs
  case txQueued ep ph m o _ _ _ =>
    refine h.same [.returned ep.nextId none, .send .tx ep.nextId (ep.outgoing m).remote o true ep.now,
      .passed ep.nextId ep.n1 ep.t1 (ep.outgoing m)] ?_ hnow (by simp) (by simp)
    simp only [Ep.logs, Ep.enqueue]
    split <;> simp only [begun_log]
  case txLost ep ph m e l h1 h2 =>
    have hf := (Inv.fresh (ep := ep) (ph := ph) ht.inv (Nat.le_refl _)).1.unseen_about
    refine h.more ([.returned ep.nextId (some e), .freed ep.nextId] ++ l ++ [.passed ep.nextId ep.n1 ep.t1 (ep.outgoing m)])
      (by simp only [Ep.logs, begun_log]) hnow ?_ ?_
    · intro id r t hm
      simp [refused h2] at hm
    · intro l2 l1 id hl hr
      have hid : id = ep.nextId := by
        have : Event.freed id ∈ [Event.returned ep.nextId (some e), .freed ep.nextId] ++ l ++ [.passed ep.nextId ep.n1 ep.t1 (ep.outgoing m)] := by
          rw [hl]; simp
        simpa [h2.notFreed id] using this
      subst hid
      rcases List.mem_append.1 hr with hr | hr
      · have : Event.returned ep.nextId none ∈ [Event.returned ep.nextId (some e), .freed ep.nextId] ++ l ++ [.passed ep.nextId ep.n1 ep.t1 (ep.outgoing m)] := by
          rw [hl]; simp [hr]
        rcases h2 with ⟨rfl, _⟩ | ⟨o, _, rfl⟩ <;> simp at this
      · exact absurd rfl (hf _ hr)
  case txLostCb ep ph m l h1 h2 h3 =>
    refine h.same ([.respCb ep.nextId none ep.now] ++ l ++ [.passed ep.nextId ep.n1 ep.t1 (ep.outgoing m)])
      (by simp only [Ep.logs, begun_log]) hnow ?_ ?_
    · intro id r t hm
      simp only [List.mem_append, List.mem_cons, List.not_mem_nil, or_false, refused h3, reduceCtorEq] at hm
      cases hm
      exact Nat.le_of_eq (bnow ep m).symm
    · intro id hm
      simp [h3.notFreed id] at hm
  case txLostEnd ep a t id b e hb =>
    refine h.more [.returned id (some e), .freed id] rfl hnow (by simp) ?_
    intro l2 l1 i hl hr
    have hl' : i = id ∧ l1 = [] := by
      cases l2 with
      | nil => simp at hl
      | cons x l2 =>
        simp only [List.cons_append, List.cons.injEq] at hl
        cases l2 with
        | nil => simp at hl; exact ⟨hl.2.1.symm, hl.2.2⟩
        | cons y l2 => simp at hl
    obtain ⟨rfl, rfl⟩ := hl'
    obtain ⟨s, g1, g2, _⟩ := ht.inv.life i
    have : Ph.txOf ⟨a, (i, true) :: t⟩ i = some true := by simp [Ph.txOf]
    dsimp only at g2
    rw [this] at g2
    cases s <;> simp [Fits] at g2
    exact absurd hr (g1.early.1 rfl)
  case txUnq ep ph m o _ _ _ _ => exact h.same _ (by simp only [Ep.logs, begun_log]; rfl) hnow (by simp) (by simp)
  case txUnqCb ep ph m o _ _ _ _ _ =>
    refine h.same _ (by simp only [Ep.logs, begun_log]; rfl) hnow ?_ (by simp)
    intro id r t hm
    simp only [List.mem_cons, List.not_mem_nil, or_false, reduceCtorEq] at hm
    cases hm
    exact Nat.le_of_eq (bnow ep m).symm
  case txUnqEnd => exact h.same _ rfl hnow (by simp) (by simp)
  case number => exact h.same [] rfl hnow (by simp) (by simp)
  case heartbeat ep ph r l hl =>
    refine h.same l rfl hnow ?_ ?_
    · rcases hl with rfl | ⟨_, _, _, rfl⟩ <;> simp
    · rcases hl with rfl | ⟨_, _, _, rfl⟩ <;> simp
  case replied ep ph k m id o ok _ _ _ => exact h.same [_] rfl hnow (by simp) (by simp)
  case quiet ep ph e he => exact h.same [e] rfl hnow (by cases he <;> simp) (by cases he <;> simp)
  case invalidate => exact h.same [] rfl hnow (by simp) (by simp)
  case peers => exact h.same [] rfl hnow (by simp) (by simp)
  case setSeq => exact h.same [] rfl hnow (by simp) (by simp)
  case setTimers => exact h.same [_] rfl hnow (by simp) (by simp)
  case close ep ph hn =>
    refine h.more _ rfl hnow ?_ ?_
    · intro id r t hm
      simp only [List.mem_reverse, List.mem_flatten, List.mem_map] at hm
      obtain ⟨_, ⟨x, hx, rfl⟩, he⟩ := hm
      simp at he
    · intro l2 l1 id hl _ _ hd
      have hm : Event.freed id ∈ ((ep.reqs ++ ep.resps).map fun e => [Event.dropped e.id, Event.freed e.id]).flatten.reverse := by
        rw [hl]; simp
      refine absurd ?_ hd
      refine List.mem_append_left _ ?_
      simp only [List.mem_reverse, List.mem_flatten, List.mem_map] at hm ⊢
      obtain ⟨_, ⟨x, hx, rfl⟩, he⟩ := hm
      simp only [List.mem_cons, List.not_mem_nil, or_false, reduceCtorEq, false_or, Event.freed.injEq] at he
      subst he
      exact ⟨_, ⟨x, hx, rfl⟩, .head _⟩
  case bind => exact h.same [] rfl hnow (by simp) (by simp)
  case advance => exact h.same [] rfl hnow (by simp) (by simp)
  case retrans => exact h.same [_] rfl hnow (by simp) (by simp)
  case timeout ep e l _ hf hx _ _ hl =>
    have hrl : (∀ i r t, Event.respCb i r t ∉ l) ∧ (∀ i, Event.freed i ∉ l) ∧ ∀ x ∈ l, x.sentAt e.id = none := by
      rcases hl with ⟨_, rfl⟩ | ⟨_, hl⟩
      · simp
      · exact ⟨fun _ _ _ => refused hl, hl.notFreed, fun x hx => (hl.notSent _ x hx).1⟩
    refine h.more (.freed e.id :: l) rfl hnow ?_ ?_
    · intro id r t hm
      simp [hrl.1] at hm
    · intro l2 l1 id hl' _ _ _ _
      have hl2 : l2 = [] := by
        cases l2 with
        | nil => rfl
        | cons x l2 =>
          simp only [List.cons_append, List.cons.injEq] at hl'
          exact absurd (by rw [hl'.2]; simp) (hrl.2.1 id)
      subst hl2
      simp only [List.nil_append, List.cons.injEq, Event.freed.injEq] at hl'
      obtain ⟨rfl, rfl⟩ := hl'
      obtain ⟨t, v, k, g1, g2⟩ := ht.reqs e (List.mem_of_find?_eq_some hf)
      dsimp only at g1
      refine ⟨t, v, k, by dsimp only; rw [lastSent_append hrl.2.2]; exact g1, ?_⟩
      unfold QEntry.expired at hx
      cases hd : e.timer with
      | none => simp [hd] at hx
      | some d =>
        simp [hd] at hx
        rw [← (g2 d hd).1]
        exact hx
  case timeoutCb ep e e' l _ _ _ _ _ hl _ _ _ _ _ _ =>
    have hrl : (∀ i r t, Event.respCb i r t ∉ l) ∧ (∀ i, Event.freed i ∉ l) := by
      rcases hl with ⟨_, rfl⟩ | ⟨_, hl⟩
      · simp
      · exact ⟨fun _ _ _ => refused hl, hl.notFreed⟩
    refine h.same (.respCb e.id none ep.now :: l) rfl hnow ?_ (by simp [hrl.2])
    intro id r t hm
    simp only [List.mem_cons, hrl.1, or_false] at hm
    cases hm
    exact Nat.le_refl _
  case complete ep id p hb he hp =>
    refine h.more [.freed id] rfl hnow (by simp) ?_
    intro l2 l1 i hl _ _ _ htl
    have hl' : i = id ∧ l1 = [] := by
      cases l2 with
      | nil => simp at hl; exact ⟨hl.1.symm, hl.2⟩
      | cons x l2 => simp at hl
    obtain ⟨rfl, rfl⟩ := hl'
    obtain ⟨s, g1, g2, _⟩ := ht.inv.life i
    have hat : Ph.at { at' := some (i, p) } i = some p := by simp [Ph.at]
    dsimp only at g2
    rw [hat] at g2
    have hg := g1.outcome
    have told : GotResponse i ep.log → ∃ e ∈ ep.log, Told i e := by
      rintro (⟨k, t, hm⟩ | ⟨k, hm⟩)
      · exact ⟨_, hm, rfl⟩
      · exact ⟨_, hm, rfl⟩
    have : ∃ e ∈ ep.log, Told i e := by
      cases s <;> simp only [Fits, reduceCtorEq, and_false, false_and, false_or, Option.some.injEq] at g2
      case waiting =>
        obtain ⟨_, _, _, _, _, _, _, k, rfl⟩ := g2
        rcases hp with h | ⟨_, h⟩ | ⟨_, h⟩ <;> cases h
      case matched =>
        obtain ⟨_, _, _, _, _, _, _, rfl⟩ := g2
        rcases hp with h | ⟨_, h⟩ | ⟨_, h⟩ <;> cases h
      case called => exact told hg
      case dispatched => exact told hg
      case gaveUp => obtain ⟨t, hm⟩ := hg.2; exact ⟨_, hm, rfl⟩
      case kept =>
        obtain ⟨_, _, _, _, _, _, _, k, rfl⟩ := g2
        rcases hp with h | ⟨_, h⟩ | ⟨_, h⟩ <;> cases h
    obtain ⟨e, he, hte⟩ := this
    exact absurd hte (htl e he)
  case expire ep e _ hf hx hr => 
    refine h.more [.freed e.id] rfl hnow (by simp) ?_
    intro l2 l1 i hl _ hq _ _
    have hi : i = e.id := by
      cases l2 with
      | nil => simp at hl; exact hl.1.symm
      | cons x l2 => simp at hl
    subst hi
    obtain ⟨n1, t1, m, o, g1, _, g2, _⟩ := ht.inv.response (show look ep.resps e.id = some e from hf)
    have := hq n1 t1 m (.tail _ ((g1.tally.info n1 t1 m).2 rfl))
    rw [g2] at this
    cases this
  case found => exact h.same [] rfl hnow (by simp) (by simp)
  case matched => exact h.same [_] rfl hnow (by simp) (by simp)
  case called =>
    refine h.same [_] rfl hnow ?_ (by simp)
    intro id r t hm
    cases List.mem_singleton.1 hm
    exact Nat.le_refl _
  case dispatched => exact h.same [_] rfl hnow (by simp) (by simp)
  case dup => exact h.same [] rfl hnow (by simp) (by simp)
  case resend ep k e l m' _ _ _ _ h5 =>
    refine h.same l rfl hnow ?_ ?_
    · rcases h5 with ⟨rfl, _⟩ | ⟨o, ok, _, rfl⟩ <;> simp
    · rcases h5 with ⟨rfl, _⟩ | ⟨o, ok, _, rfl⟩ <;> simp

theorem Steps.elapsed {a b : Ep × Ph} (hs : Steps a b) (h : Elapsed a) (ht : TimeInv False a) : Elapsed b := by
  induction hs with
  | refl => exact h
  | snoc h1 hm ih => exact ih.step (h1.timeInv ht False.elim).1 hm

theorem Reached.elapsed {ep : Ep} (h : Reached ep) : Elapsed (ep, {}) := by
  induction h with
  | create =>
    refine ⟨fun id r t hm => ?_, fun l2 l1 id hl => ?_⟩
    · cases List.mem_singleton.1 hm
    · have : Event.freed id ∈ l2 ++ .freed id :: l1 := by simp
      rw [← hl] at this
      cases List.mem_singleton.1 this
  | op o h0 h ih => exact (step_tops h h0.busy).2.elapsed ih h0.timeInv
  | rx m r h0 h ih => exact (handleRx_tops h h0.busy).2.elapsed ih h0.timeInv

/-- A log that begins with the configuration does so at each point, but not before it. -/
theorem begins_before {log l2 l1 : List Event} {e a b c l} (h : log = l ++ [.config a b c]) (hs : log = l2 ++ e :: l1) (hne : l1 ≠ []) :
    ∃ l', l1 = l' ++ [.config a b c] := by
  refine ⟨l1.dropLast, ?_⟩
  have h1 : l1.getLast hne = .config a b c := by
    have : (l2 ++ e :: l1).getLast? = (l ++ [Event.config a b c]).getLast? := by rw [← hs, ← h]
    simp only [List.getLast?_append, List.getLast?_singleton, Option.some_or] at this
    rw [List.getLast?_cons, List.getLast?_eq_some_getLast hne] at this
    simpa using this
  rw [← h1]
  exact (List.dropLast_concat_getLast hne).symm

theorem AllTimely.before {P : Prop} : ∀ {l2 : List Event} {e l1}, AllTimely P (l2 ++ e :: l1) → AllTimely P l1
  | [], _, _, h => h.2
  | _ :: l2, _, _, h => AllTimely.before (l2 := l2) h.2

/-- A request that was first sent at `t0` and was given up. -/
theorem Reached.givenUp {ep : Ep} (h : Reached ep) {id n1 t1 m v t0 r o} (hp : Event.passed id n1 t1 m ∈ ep.log)
    (hq : m.isResponse = false)
    (h0 : Event.send .tx id r o true t0 ∈ ep.log) (hv : ∀ a b c, Event.config a b c ∈ ep.log → v ≤ b)
    (hs : ¬ SendFailed id ep.log) (hd : Event.dropped id ∉ ep.log) (hg : GivenUp id ep.log) :
    t0 + (n1 + 1) * v ≤ ep.now := by
  obtain ⟨l2, e, l1, n1', t1', m', o', hl, hlife, he⟩ := hg
  obtain ⟨s, hlf, htally, _⟩ := h.stage id
  obtain ⟨lc, a, b, c, hlc⟩ := h.begins
  have hin : ∀ {x}, x ∈ l1 → x ∈ ep.log := fun hx => by rw [hl]; exact List.mem_append_right _ (.tail _ hx)
  have hinfo : Event.passed id n1' t1' m' ∈ l1 := (hlife.tally.info _ _ _).2 rfl
  have heq : n1' = n1 ∧ t1' = t1 ∧ m' = m := by
    have := ((htally.info _ _ _).1 (hin hinfo)).symm.trans ((htally.info _ _ _).1 hp)
    simpa using this
  obtain ⟨rfl, rfl, rfl⟩ := heq
  have hne : l1 ≠ [] := by rintro rfl; cases hinfo
  obtain ⟨l', rfl⟩ := begins_before hlc hl hne
  -- what was sent before
  have hlen := hlife.exact rfl rfl
  simp only [Stage.room, Nat.add_zero] at hlen
  have hsent : (sentTimes id (l' ++ [.config a b c])).length = 1 + n1' := by
    rw [sentTimes_all _ _ fun w r o t hx => hs ⟨w, r, o, t, hin hx⟩, hlen]
  have hti := h.timeInv.events
  rw [hl] at hti
  have h0' : Event.send .tx id r o true t0 ∈ l' ++ [.config a b c] := by
    have h0' := h0
    rw [hl] at h0'
    rcases List.mem_append.1 h0' with hx | hx
    · obtain ⟨x1, x2, rfl⟩ := List.append_of_mem hx
      rw [hl, List.append_assoc] at hlf
      obtain ⟨s0, s1, y1, y2⟩ := hlf.split
      have hun : Unsent id (x2 ++ e :: (l' ++ [.config a b c])) := by
        cases y2
        case other ha => exact absurd rfl ha
        case send => exact y1.outcome
      unfold Unsent sentTimes at hun
      rw [List.filterMap_append, List.append_eq_nil_iff, List.filterMap_cons] at hun
      have : sentTimes id (l' ++ [.config a b c]) = [] := by
        have hun := hun.2
        split at hun
        · exact hun
        · cases hun
      rw [this] at hsent
      simp at hsent
      omega
    · rcases List.mem_cons.1 hx with rfl | hx
      · rcases he with ⟨he, _⟩ | ⟨_, he⟩ <;> cases he
      · exact hx
  obtain ⟨t', v', k', g1, g2, g3⟩ := sentTimes_spaced hlife hti.before (fun a b c hx => hv a b c (hin hx)) h0'
  rw [hsent] at g3
  have hu := hlife.untold
  have key : t' + v' ≤ ep.now := by
    rcases he with ⟨rfl, _⟩ | ⟨t, rfl⟩
    · obtain ⟨t2, v2, k2, y1, y2⟩ := h.elapsed.freed l2 _ id hl (hu.2 _ _ _ _ _ rfl) (fun a1 a2 a3 hx => by
        have := ((htally.info _ _ _).1 hx).symm.trans ((htally.info _ _ _).1 hp)
        simp only [Option.some.injEq, Prod.mk.injEq] at this
        rw [this.2.2]; exact hq) hd (hu.1 rfl)
      rw [g1] at y1
      cases y1
      exact y2
    · obtain ⟨t2, v2, k2, y1, y2⟩ := hti.at (hu.2 _ _ _ _ _ rfl)
      rw [g1] at y1
      cases y1
      exact Nat.le_trans y2.1 (h.elapsed.cbs id none t (by rw [hl]; simp))
  rw [Nat.add_comm 1] at g3
  omega

namespace Props

/-! ### C87: failures are not premature -/

/-- C87: a request that was sent is not given up too early.  Assume that a request was first sent at time `t0`, when N1 was `n1` (and neither
N1 nor T1 was zero), that T1 never was less than `v`, and that sendto() never failed for it.  Then, before the time `t0 + (n1 + 1) * v`,
the endpoint waits for the response, or has got it, or the endpoint was closed. -/
theorem C87_not_given_up {ep : Ep} (h : Reached ep) {id n1 t1 m v t0 r o} (hp : Event.passed id n1 t1 m ∈ ep.log)
    (hq : m.isResponse = false) (hn : n1 ≠ 0) (ht : t1 ≠ 0)
    (h0 : Event.send .tx id r o true t0 ∈ ep.log) (hv : ∀ a b c, Event.config a b c ∈ ep.log → v ≤ b)
    (hs : ∀ why r o t, Event.send why id r o false t ∉ ep.log) (hd : Event.dropped id ∉ ep.log)
    (hnow : ep.now < t0 + (n1 + 1) * v) :
    ep.pending id ∨ (∃ k t, Event.respCb id (some k) t ∈ ep.log) ∨ ∃ k, Event.dispatch k (some id) ∈ ep.log := by
  obtain ⟨s, hl, htl, hf⟩ := h.stage id
  have hi := (htl.info _ _ _).1 hp
  have ho := hl.outcome
  have hsent : ¬ Unsent id ep.log := by
    intro hx
    have hm : t0 ∈ sentTimes id ep.log := List.mem_filterMap.2 ⟨_, h0, if_pos rfl⟩
    rw [hx] at hm
    cases hm
  rw [pending_iff]
  cases s <;> simp only [Stage.info, Option.some.injEq, Prod.mk.injEq, reduceCtorEq] at hi
  case over n1' t1' m' d =>
    obtain ⟨rfl, rfl, rfl⟩ := hi
    rcases ho with ho | ho | ho | ho | ⟨w, r, o, t, ho⟩ | ho
    · exact absurd ho hd
    · exact absurd ho hsent
    · rw [hq] at ho; cases ho
    · exact .inr ho
    · exact absurd ho (hs _ _ _ _)
    · have := h.givenUp hp hq h0 hv (fun ⟨w, r, o, t, hx⟩ => hs w r o t hx) hd ho
      omega
  case leaked =>
    obtain ⟨rfl, rfl, rfl⟩ := hi
    rcases ho with ho | ho
    · exact absurd ho hn
    · exact absurd ho ht
  case waiting =>
    obtain ⟨_, _, _, e, he, _⟩ := hf
    exact .inl ⟨e, he⟩
  case kept =>
    obtain ⟨_, _, hm, _⟩ := hf
    obtain ⟨_, _, rfl⟩ := hi
    rw [hq] at hm; cases hm
  all_goals exfalso; simp [Fits] at hf

/-- C87: likewise, failure of a request that was sent is not reported too early. -/
theorem C87_not_reported {ep : Ep} (h : Reached ep) {id n1 t1 m v t0 r o t} (hp : Event.passed id n1 t1 m ∈ ep.log)
    (hn : n1 ≠ 0) (ht : t1 ≠ 0)
    (h0 : Event.send .tx id r o true t0 ∈ ep.log) (hv : ∀ a b c, Event.config a b c ∈ ep.log → v ≤ b)
    (hs : ∀ why r o t, Event.send why id r o false t ∉ ep.log) (hc : Event.respCb id none t ∈ ep.log) :
    t0 + (n1 + 1) * v ≤ t := by
  obtain ⟨l2, l1, hl⟩ := List.append_of_mem hc
  obtain ⟨s, hlf, htally, _⟩ := h.stage id
  obtain ⟨lc, a, b, c, hlc⟩ := h.begins
  have hin : ∀ {x}, x ∈ l1 → x ∈ ep.log := fun hx => by rw [hl]; exact List.mem_append_right _ (.tail _ hx)
  -- it was sent before
  have h0' : Event.send .tx id r o true t0 ∈ l1 := by
    have h0' := h0
    rw [hl] at h0'
    rcases List.mem_append.1 h0' with hx | hx
    · obtain ⟨x1, x2, rfl⟩ := List.append_of_mem hx
      rw [hl, List.append_assoc] at hlf
      obtain ⟨s0, s1, y1, y2⟩ := hlf.split
      have hun : ∀ e ∈ x2 ++ .respCb id none t :: l1, ¬ Told id e := by
        cases y2
        case other ha => exact absurd rfl ha
        case send => exact y1.untold.1 rfl
      exact absurd rfl (hun (.respCb id none t) (by simp))
    · rcases List.mem_cons.1 hx with hx | hx
      · cases hx
      · exact hx
  have hsent : ¬ Unsent id l1 := by
    intro hx
    have hm : t0 ∈ sentTimes id l1 := List.mem_filterMap.2 ⟨_, h0', if_pos rfl⟩
    rw [hx] at hm
    cases hm
  rw [hl] at hlf
  obtain ⟨s0, s1, hlife, hnx⟩ := hlf.split
  have hinfo : ∀ n1' t1' m', s0.info = some (n1', t1', m') → n1' = n1 ∧ t1' = t1 := by
    intro n1' t1' m' hx
    have := ((htally.info _ _ _).1 (hin ((hlife.tally.info _ _ _).2 hx))).symm.trans ((htally.info _ _ _).1 hp)
    simp only [Option.some.injEq, Prod.mk.injEq] at this
    exact ⟨this.1, this.2.1⟩
  have hw : ∃ m' o', s0 = .waiting n1 t1 m' o' 0 := by
    cases hnx
    case other ha => exact absurd rfl ha
    case reportNotSent => exact absurd hlife.outcome hsent
    case reportRefused => exact absurd hlife.outcome hsent
    case reportSent n1' t1' m' _ _ hz =>
      obtain ⟨rfl, rfl⟩ := hinfo _ _ _ rfl
      rcases hz with hz | hz
      · exact absurd hz hn
      · exact absurd hz ht
    case giveUp n1' t1' m' o' _ =>
      obtain ⟨rfl, rfl⟩ := hinfo _ _ _ rfl
      exact ⟨_, _, rfl⟩
    case giveUpStuck =>
      obtain ⟨w, r, o, t, hx⟩ := hlife.outcome
      exact absurd (hin hx) (hs _ _ _ _)
  obtain ⟨m', o', rfl⟩ := hw
  have hne : l1 ≠ [] := by rintro rfl; cases h0'
  obtain ⟨l', rfl⟩ := begins_before hlc hl hne
  have hlen := hlife.exact rfl rfl
  simp only [Stage.room, Nat.add_zero] at hlen
  have hlen' : (sentTimes id (l' ++ [.config a b c])).length = 1 + n1 := by
    rw [sentTimes_all _ _ fun w r o t hx => hs w r o t (hin hx), hlen]
  have hti := h.timeInv.events
  rw [hl] at hti
  obtain ⟨t', v', k', g1, g2, g3⟩ := sentTimes_spaced hlife hti.before (fun a b c hx => hv a b c (hin hx)) h0'
  rw [hlen', Nat.add_comm 1] at g3
  obtain ⟨t2, v2, k2, y1, y2⟩ := hti.at (hlife.untold.2 _ _ _ _ _ rfl)
  rw [g1] at y1
  cases y1
  have := y2.1
  omega

/-- C87: so before this time, the endpoint waits for the response, or resp_cb() was called, once, with a response. -/
theorem C87_waits {ep : Ep} (h : Reached ep) {id n1 t1 m v t0 r o} (hp : Event.passed id n1 t1 m ∈ ep.log)
    (hq : m.isResponse = false) (hcb : m.hasCb = true) (hn : n1 ≠ 0) (ht : t1 ≠ 0)
    (h0 : Event.send .tx id r o true t0 ∈ ep.log) (hv : ∀ a b c, Event.config a b c ∈ ep.log → v ≤ b)
    (hs : ∀ why r o t, Event.send why id r o false t ∉ ep.log) (hd : drops id ep.log = 0)
    (hnow : ep.now < t0 + (n1 + 1) * v) :
    ep.pending id ∧ respCalls id ep.log = [] ∨ ∃ k, respCalls id ep.log = [some k] := by
  rcases C47_exactly_once_partial h hp hq hcb with ⟨h1, h2, _⟩ | ⟨_, h2, _⟩ | ⟨_, _, h2⟩
  · exact .inl ⟨h1, List.length_eq_zero_iff.1 h2⟩
  · obtain ⟨x, hx⟩ := List.length_eq_one_iff.1 h2
    cases x with
    | some k => exact .inr ⟨k, hx⟩
    | none =>
      have hm : none ∈ respCalls id ep.log := by rw [hx]; exact .head _
      obtain ⟨e, he, hem⟩ := List.mem_filterMap.1 hm
      split at hem
      · rename_i i resp t
        split at hem
        · rename_i hi
          subst hi
          cases hem
          have h3 := C87_not_reported h hp hn ht h0 hv hs he
          have h4 := h.elapsed.cbs _ _ _ he
          dsimp only at h4
          omega
        · cases hem
      · cases hem
  · omega

/-- C87: no response that arrives in time is lost.  In a network of endpoints: assume that `a` sent a request with a resp_cb(), first at time
`t0`, when N1 was `n1`, that its T1 never was less than `v`, that sendto() never failed for the request, that the endpoint was not closed
since then, and that no sequence number was used twice.  When any response with its sequence number arrives before the time
`t0 + (n1 + 1) * v`, then resp_cb() has been called exactly once, with a response, and not with a failure. -/
theorem C87_response_in_time {w : Net} (h : NetReached w) (hpr : Proper w) {a b id n1 t1 m id' n1' t1' resp o why ok t rs ep' v t0 r o0}
    (hf : (w a).freshSeqs) (hp : Event.passed id n1 t1 m ∈ (w a).log) (hq : m.isResponse = false) (hcb : m.hasCb = true)
    (hn : n1 ≠ 0) (ht : t1 ≠ 0) (h0 : Event.send .tx id r o0 true t0 ∈ (w a).log)
    (hv : ∀ x y z, Event.config x y z ∈ (w a).log → v ≤ y) (hs : ∀ why r o t, Event.send why id r o false t ∉ (w a).log)
    (hd : drops id (w a).log = 0) (hnow : (w a).now < t0 + (n1 + 1) * v)
    (hresp : Event.passed id' n1' t1' resp ∈ (w b).log) (hrr : resp.isResponse = true) (hseq : resp.h.seq = m.h.seq)
    (ho : Event.send why id' a o ok t ∈ (w b).log) (hw : why = .tx ∨ ∃ k, why = .cachedReply k)
    (hsk : (w a).sock = true) (hr : (w a).rxDatagram b o rs = .ok ep') :
    ∃ k, respCalls id ep'.log = [some k] := by
  have ha := h.reached a
  rcases C87_waits ha hp hq hcb hn ht h0 hv hs hd hnow with ⟨h1, _⟩ | ⟨k, h1⟩
  · obtain ⟨x, _, _, _, _, hx, _⟩ := C85_response_delivered h hpr hf hp hq h1 hresp hrr hseq ho hw hsk hr
    rw [hcb] at hx
    exact ⟨_, hx⟩
  · have hst : (Op.rx b o rs).step (w a) = .ok ep' := hr
    have hr' : Reached ep' := .op _ ha hst
    obtain ⟨l, hl⟩ := (step_tops hst ha.busy).2.log
    have h2 := C47_at_most_once hr' id
    have h3 : respCalls id ep'.log = respCalls id l ++ respCalls id (w a).log := by
      dsimp only at hl
      rw [hl, respCalls, List.filterMap_append]
      rfl
    rw [h3, h1] at h2 ⊢
    refine ⟨k, ?_⟩
    cases hrl : respCalls id l with
    | nil => rfl
    | cons x y => rw [hrl] at h2; simp at h2

/-! ### Examples -/

/-- The request of PropsEndpoint.lean (N1 = 2, T1 = 100 ms) is still pending at 299 ms, which is before 0 + (2 + 1) * 100, and with every hypothesis
of C87 met; at 300 ms it has failed: the bound is exact. -/
example : (∃ ep m, exec (exSend ++ exTimer ++ exTimer ++ [.advance 99, .reqTimer 0 true .done]) exEp = .ok ep ∧ Reached ep ∧ ep.now = 299 ∧
      m.isResponse = false ∧ m.hasCb = true ∧ drops 0 ep.log = 0 ∧ ep.pending 0 ∧
      ep.log = [.send .retrans 0 exRemote exOctets true 200, .send .retrans 0 exRemote exOctets true 100, .returned 0 none,
       .send .tx 0 exRemote exOctets true 0, .passed 0 2 100 m, .config 2 100 1000]) ∧
    ∃ ep, exec (exSend ++ exTimer ++ exTimer ++ exTimer) exEp = .ok ep ∧ ep.now = 300 ∧ respCalls 0 ep.log = [none] :=
  ⟨⟨_, _, rfl, Reached.exec (ops := exSend ++ exTimer ++ exTimer ++ [.advance 99, .reqTimer 0 true .done]) (ep := exEp) exEp_reached rfl, rfl, rfl,
    rfl, rfl, ⟨_, .head _, rfl⟩, rfl⟩, _, rfl, rfl, rfl⟩

/-- What C87 says about this log. -/
example {ep : Ep} {m} (h : Reached ep) (hl : ep.log = [.send .retrans 0 exRemote exOctets true 200, .send .retrans 0 exRemote exOctets true 100,
      .returned 0 none, .send .tx 0 exRemote exOctets true 0, .passed 0 2 100 m, .config 2 100 1000]) (hn : ep.now = 299)
    (hm : m.isResponse = false) (hc : m.hasCb = true) : ep.pending 0 ∧ respCalls 0 ep.log = [] ∨ ∃ k, respCalls 0 ep.log = [some k] :=
  C87_waits h (n1 := 2) (t1 := 100) (m := m) (v := 100) (t0 := 0) (r := exRemote) (o := exOctets) (by simp [hl]) hm hc (by omega) (by omega)
    (by simp [hl]) (by simp [hl]; omega) (by simp [hl]) (by rw [hl]; rfl) (by omega)

/-- B has answered, but the answer takes its time. -/
def exLate : List NetOp :=
  exAssoc.take 3 ++ [.at exA (.advance 100), .at exA (.reqTimer 0 true .done), .at exA (.advance 100), .at exA (.reqTimer 0 true .done),
    .at exA (.advance 99)]

/-- Requests with a resp_cb(), and with the timers and the time `t0` of the first transmission. -/
def firstSent (log : List Event) : List (Nat × Nat × Nat × Nat) :=
  log.flatMap fun e => match e with
    | .passed id n1 t1 m => if m.isResponse = false ∧ m.hasCb = true then log.filterMap fun e => match e with
      | .send .tx i _ _ true t => if i = id then some (id, n1, t1, t) else none
      | _ => none else []
    | _ => []

theorem firstSent_mem {log id n1 t1 t0} (h : (id, n1, t1, t0) ∈ firstSent log) :
    ∃ m r o, Event.passed id n1 t1 m ∈ log ∧ m.isResponse = false ∧ m.hasCb = true ∧ Event.send .tx id r o true t0 ∈ log := by
  unfold firstSent at h
  obtain ⟨e, he, h⟩ := List.mem_flatMap.1 h
  split at h
  · rename_i m
    by_cases hm : m.isResponse = false ∧ m.hasCb = true
    · rw [if_pos hm] at h
      obtain ⟨e', he', h'⟩ := List.mem_filterMap.1 h
      clear h
      split at h'
      · split at h'
        · rename_i hi
          subst hi
          cases h'
          exact ⟨m, _, _, he, hm.1, hm.2, he'⟩
        · cases h'
      · cases h'
    · rw [if_neg hm] at h; cases h
  · cases h

/-- No transmission failed. -/
def neverFailedB (log : List Event) : Bool := log.all fun e => match e with | .send _ _ _ _ false _ => false | _ => true

theorem exLate_found : ((netExec exLate exNet).any fun w => goodB [exA, exB] w && freshB (w exA) && (w exA).sock && sendsB 2 100 (w exA).log &&
    neverFailedB (w exA).log && decide (drops 0 (w exA).log = 0) && decide ((w exA).now = 299) &&
    decide (firstSent (w exA).log = [(0, 2, 100, 0)]) &&
    ((answeredBy exA (w exA).log (w exB).log).any fun x => decide (x.1 = 0))) = true := by decide +kernel

/-- The hypotheses of C87 about a response are met: it arrives at 299 ms. -/
example : ∃ w id' n1 t1 m n1' t1' resp o ok t r o0 t0, NetReached w ∧ Proper w ∧ (w exA).freshSeqs ∧ Event.passed 0 n1 t1 m ∈ (w exA).log ∧
    m.isResponse = false ∧ m.hasCb = true ∧ n1 = 2 ∧ t1 = 100 ∧ Event.send .tx 0 r o0 true t0 ∈ (w exA).log ∧
    (∀ x y z, Event.config x y z ∈ (w exA).log → 100 ≤ y) ∧ (∀ why r o t, Event.send why 0 r o false t ∉ (w exA).log) ∧
    drops 0 (w exA).log = 0 ∧ (w exA).now < t0 + (n1 + 1) * 100 ∧
    Event.passed id' n1' t1' resp ∈ (w exB).log ∧ resp.isResponse = true ∧
    resp.h.seq = m.h.seq ∧ Event.send .tx id' exA o ok t ∈ (w exB).log ∧ (w exA).sock = true := by
  obtain ⟨w, h1, h2, h3⟩ := net_found [exA, exB] _ exLate_found (by decide)
  simp only [Bool.and_eq_true, decide_eq_true_eq] at h2
  obtain ⟨⟨⟨⟨⟨⟨⟨⟨h4, h5⟩, h6⟩, h7⟩, h8⟩, h9⟩, h10⟩, h11⟩, h12⟩ := h2
  obtain ⟨⟨i, id', o⟩, hx, hi⟩ := List.any_eq_true.1 h12
  obtain ⟨n1, t1, m, n1', t1', resp, ok, t, g1, g2, g3, g4, g5, g6⟩ := answeredBy_mem hx
  cases of_decide_eq_true hi
  obtain ⟨m', r, o0, y1, y2, y3, y4⟩ := firstSent_mem (by rw [h11]; exact .head _)
  obtain ⟨s, _, htl, _⟩ := (h1.reached exA).stage 0
  have := ((htl.info _ _ _).1 g1).symm.trans ((htl.info _ _ _).1 y1)
  simp only [Option.some.injEq, Prod.mk.injEq] at this
  obtain ⟨rfl, rfl, rfl⟩ := this
  refine ⟨w, id', 2, 100, m, n1', t1', resp, o, ok, t, r, o0, 0, h1, (goodB_ok h4 h3).1, freshB_ok h5, g1, g2, y3, rfl, rfl, y4, ?_, ?_, h9, ?_,
    g3, g4, g5, g6, h6⟩
  · intro x y z hm
    rw [(sendsB_ok h7 _ _ _ hm).2]
    exact Nat.le_refl _
  · intro why r o t hm
    have := List.all_eq_true.1 h8 _ hm
    simp at this
  · rw [h10]; omega

/-- C87: that T1 never was less than `v` is needed, not only when the request is passed: with T1 reduced before a retransmission, failure comes
earlier.  Here the request is passed with T1 = 100 ms and N1 = 2, and fails at 102 ms. -/
theorem C87_reduced_timer :
    ∃ ep m, exec (exSend ++ [.app (.setTimers 2 1 1000 .done)] ++ exTimer ++ [.advance 1, .reqTimer 0 true .done, .advance 1, .reqTimer 0 true .done]) exEp = .ok ep ∧
      ep.log = [.freed 0, .respCb 0 none 102, .send .retrans 0 exRemote exOctets true 101, .send .retrans 0 exRemote exOctets true 100,
        .config 2 1 1000, .returned 0 none, .send .tx 0 exRemote exOctets true 0, .passed 0 2 100 m, .config 2 100 1000] :=
  ⟨_, _, rfl, rfl⟩

end Props

end Verif
