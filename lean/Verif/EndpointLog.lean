/-
What the log says about received messages and the requests and responses that they refer to.
-/
import Verif.EndpointRx

namespace Verif

/-- The log only grows. -/
theorem Micro.log {a b : Ep × Ph} (h : Micro a b) : ∃ l, b.1.log = l ++ a.1.log := by
  cases h
  case txQueued ep ph m o _ _ _ =>
    refine ⟨[.returned ep.nextId none, .send .tx ep.nextId (ep.outgoing m).remote o true ep.now,
      .passed ep.nextId ep.n1 ep.t1 (ep.outgoing m)], ?_⟩
    simp only [Ep.logs, Ep.enqueue]
    split <;> simp only [begun_log]
  case txLost => exact ⟨_, by simp only [Ep.logs, begun_log]; rfl⟩
  case txLostCb => exact ⟨_, by simp only [Ep.logs, begun_log]; rfl⟩
  case txUnq => exact ⟨_, by simp only [Ep.logs, begun_log]; rfl⟩
  case txUnqCb => exact ⟨_, by simp only [Ep.logs, begun_log]; rfl⟩
  case close => exact ⟨_, rfl⟩
  case timeout ep e l _ _ _ _ _ _ => exact ⟨.freed e.id :: l, rfl⟩
  case timeoutCb ep e e' l _ _ _ _ _ _ _ _ _ _ _ _ => exact ⟨.respCb e.id none ep.now :: l, rfl⟩
  case resend ep k e l m' _ _ _ _ _ => exact ⟨l, rfl⟩
  case quiet e _ => exact ⟨[e], rfl⟩
  case heartbeat l _ => exact ⟨l, rfl⟩
  case replied => exact ⟨[_], rfl⟩
  case txLostEnd => exact ⟨[_, _], rfl⟩
  case txUnqEnd => exact ⟨[_], rfl⟩
  case expire => exact ⟨[_], rfl⟩
  case retrans => exact ⟨[_], rfl⟩
  case setTimers => exact ⟨[_], rfl⟩
  case complete => exact ⟨[_], rfl⟩
  case matched => exact ⟨[_], rfl⟩
  case called => exact ⟨[_], rfl⟩
  case dispatched => exact ⟨[_], rfl⟩
  all_goals exact ⟨[], rfl⟩

theorem Steps.log {a b : Ep × Ph} (h : Steps a b) : ∃ l, b.1.log = l ++ a.1.log := by
  induction h with
  | refl => exact ⟨[], rfl⟩
  | snoc _ hm ih =>
    obtain ⟨l, hl⟩ := ih
    obtain ⟨l', hl'⟩ := hm.log
    exact ⟨l' ++ l, by rw [hl', hl, List.append_assoc]⟩

theorem Answers.grow {log : List Event} {k id} (h : Answers log k id) (l) : Answers (l ++ log) k id := by
  obtain ⟨rx, n1, t1, m, h1, h2, h3⟩ := h
  exact ⟨rx, n1, t1, m, List.mem_append_right _ h1, List.mem_append_right _ h2, h3⟩

theorem Repeats.grow {log : List Event} {k id r} (h : Repeats log k id r) (l) : Repeats (l ++ log) k id r := by
  obtain ⟨rx, n1, t1, m, h1, h2, h3⟩ := h
  exact ⟨rx, n1, t1, m, List.mem_append_right _ h1, List.mem_append_right _ h2, h3⟩

/-- What an event says about which message refers to which. -/
def RefersOk (log : List Event) : Event → Prop
  | .respCb id (some k) _ => Answers log k id
  | .setCtx k (some id) => Answers log k id
  | .dispatch k (some id) => Answers log k id
  | .send (.cachedReply k) id r _ _ _ => Repeats log k id r
  | _ => True

theorem RefersOk.grow {log : List Event} {e} (h : RefersOk log e) (l) : RefersOk (l ++ log) e := by
  unfold RefersOk at *
  split <;> simp_all only
  · exact h.grow l
  · exact h.grow l
  · exact h.grow l
  · exact h.grow l

/-- What is known while a received message is handled. -/
def AtOk (log : List Event) : Option (Nat × PhAt) → Prop
  | some (id, .found k _) => Answers log k id
  | some (id, .matched k _) => Answers log k id
  | some (id, .called k) => Answers log k id
  | some (id, .dispatched k) => Answers log k id
  | some (id, .dup k) => ∃ r, Repeats log k id r
  | _ => True

theorem AtOk.grow {log : List Event} {p} (h : AtOk log p) (l) : AtOk (l ++ log) p := by
  unfold AtOk at *
  split <;> simp_all only
  · exact h.grow l
  · exact h.grow l
  · exact h.grow l
  · exact h.grow l
  · obtain ⟨r, h⟩ := h; exact ⟨r, h.grow l⟩

structure RefInv (x : Ep × Ph) : Prop where
  inv : Inv x
  ev : ∀ e ∈ x.1.log, RefersOk x.1.log e
  ph : AtOk x.1.log x.2.at'

/-- Events that do not refer to a received message. -/
theorem RefInv.more {a b : Ep × Ph} (h : RefInv a) (hs : Micro a b) (l : List Event) (hl : b.1.log = l ++ a.1.log)
    (hev : ∀ e ∈ l, RefersOk b.1.log e) (hp : AtOk b.1.log b.2.at') : RefInv b := by
  refine ⟨h.inv.step hs, fun e he => ?_, hp⟩
  rw [hl] at he
  rcases List.mem_append.mp he with he | he
  · exact hev e he
  · rw [hl]; exact (h.ev e he).grow l

theorem RefInv.plain {a b : Ep × Ph} (h : RefInv a) (hs : Micro a b) (l : List Event) (hl : b.1.log = l ++ a.1.log)
    (hev : ∀ e ∈ l, ∀ log, RefersOk log e) (hp : b.2.at' = a.2.at') : RefInv b :=
  h.more hs l hl (fun e he => hev e he _) (by rw [hp, hl]; exact h.ph.grow l)

theorem Refused.refers {ep : Ep} {why id m l} (h : Refused ep why id m l) (hw : why = .tx ∨ why = .retrans) :
    ∀ e ∈ l, ∀ log, RefersOk log e := by
  rcases h with ⟨rfl, _⟩ | ⟨o, _, rfl⟩
  · simp
  · intro e he log
    rw [List.mem_singleton.mp he]
    rcases hw with rfl | rfl <;> trivial

theorem RefInv.step {a b : Ep × Ph} (h : RefInv a) (hs : Micro a b) : RefInv b := by
  have hs0 := hs
  cases hs
  case txQueued ep ph m o _ _ _ =>
    refine h.plain hs0 [.returned ep.nextId none, .send .tx ep.nextId (ep.outgoing m).remote o true ep.now,
           .passed ep.nextId ep.n1 ep.t1 (ep.outgoing m)] ?_ ?_ rfl
    · simp only [Ep.logs, Ep.enqueue]
      split <;> simp only [begun_log]
    · simp [RefersOk]
  case txLost ep ph m e l _ hl =>
    refine h.plain hs0 _ (by simp only [Ep.logs, begun_log]; rfl) ?_ rfl
    intro e he log
    simp only [List.mem_append, List.mem_cons, List.not_mem_nil, or_false] at he
    rcases he with ((rfl | rfl) | he) | rfl
    · trivial
    · trivial
    · exact hl.refers (.inl rfl) e he log
    · trivial
  case txLostCb ep ph m l _ _ hl =>
    refine h.plain hs0 _ (by simp only [Ep.logs, begun_log]; rfl) ?_ rfl
    intro e he log
    simp only [List.mem_append, List.mem_cons, List.not_mem_nil, or_false] at he
    rcases he with (rfl | he) | rfl
    · trivial
    · exact hl.refers (.inl rfl) e he log
    · trivial
  case txUnq =>
    refine h.plain hs0 _ (by simp only [Ep.logs, begun_log]; rfl) ?_ rfl
    simp [RefersOk]
  case txUnqCb =>
    refine h.plain hs0 _ (by simp only [Ep.logs, begun_log]; rfl) ?_ rfl
    simp [RefersOk]
  case txLostEnd => exact h.plain hs0 [_, _] rfl (by simp [RefersOk]) rfl
  case txUnqEnd => exact h.plain hs0 [_] rfl (by simp [RefersOk]) rfl
  case number => exact h.plain hs0 [] rfl (by simp) rfl
  case heartbeat ep ph r l hl =>
    refine h.plain hs0 l rfl ?_ rfl
    rcases hl with rfl | ⟨o, ok, _, rfl⟩ <;> simp [RefersOk]
  case replied => exact h.plain hs0 [_] rfl (by simp [RefersOk]) rfl
  case quiet ep ph e hq =>
    refine h.plain hs0 [e] rfl ?_ rfl
    intro x hx log
    rw [List.mem_singleton.mp hx]
    cases hq <;> trivial
  case invalidate => exact h.plain hs0 [] rfl (by simp) rfl
  case setSeq => exact h.plain hs0 [] rfl (by simp) rfl
  case setTimers => exact h.plain hs0 [_] rfl (by simp [RefersOk]) rfl
  case close ep ph hc =>
    refine h.plain hs0 (dropEvents (ep.reqs ++ ep.resps)) rfl ?_ rfl
    intro e he log
    simp only [dropEvents, List.mem_reverse, List.mem_flatten, List.mem_map] at he
    obtain ⟨_, ⟨x, _, rfl⟩, he⟩ := he
    simp only [List.mem_cons, List.not_mem_nil, or_false] at he
    rcases he with rfl | rfl <;> trivial
  case peers => exact h.plain hs0 [] rfl (by simp) rfl
  case bind => exact h.plain hs0 [] rfl (by simp) rfl
  case advance => exact h.plain hs0 [] rfl (by simp) rfl
  case retrans => exact h.plain hs0 [_] rfl (by simp [RefersOk]) rfl
  case timeout ep e l _ _ _ _ _ hl =>
    refine h.plain hs0 (.freed e.id :: l) rfl ?_ rfl
    intro x hx log
    rcases List.mem_cons.mp hx with rfl | hx
    · trivial
    · rcases hl with ⟨_, rfl⟩ | ⟨_, hl⟩
      · cases hx
      · exact hl.refers (.inr rfl) x hx log
  case timeoutCb ep e e' l _ _ _ _ _ hl _ _ _ _ _ _ =>
    refine h.more hs0 (.respCb e.id none ep.now :: l) rfl ?_ trivial
    intro x hx
    rcases List.mem_cons.mp hx with rfl | hx
    · trivial
    · rcases hl with ⟨_, rfl⟩ | ⟨_, hl⟩
      · cases hx
      · exact hl.refers (.inr rfl) x hx _
  case complete => exact h.more hs0 [_] rfl (by simp [RefersOk]) trivial
  case expire => exact h.more hs0 [_] rfl (by simp [RefersOk]) trivial
  case found ep k e rx hb hq hrx hk =>
    refine h.more hs0 [] rfl (by simp) ?_
    obtain ⟨he, hsq⟩ := queueFind_some hq
    obtain ⟨n1, t1, m, o, hl, hs, hr, _⟩ := h.inv.request (look_of_mem h.inv.nodupReqs he) rfl
    exact ⟨rx, n1, t1, m, hk, (hl.tally.info _ _ _).mpr rfl, hrx, hr, by rw [← hs.seq, hsq]⟩
  case matched => exact h.more hs0 [_] rfl (fun x hx => by rw [List.mem_singleton.mp hx]; exact AtOk.grow h.ph [_]) (AtOk.grow h.ph [_])
  case called ep k id p hb hp =>
    have : Answers ep.log k id := by rcases hp with rfl | rfl <;> exact h.ph
    exact h.more hs0 [_] rfl (fun x hx => by rw [List.mem_singleton.mp hx]; exact this.grow [_]) (this.grow [_])
  case dispatched ep k id p hb hp =>
    have : Answers ep.log k id := by rcases hp with rfl | rfl | rfl <;> exact h.ph
    exact h.more hs0 [_] rfl (fun x hx => by rw [List.mem_singleton.mp hx]; exact this.grow [_]) (this.grow [_])
  case dup ep k e rx hb hq hrx hk =>
    refine h.more hs0 [] rfl (by simp) ?_
    obtain ⟨he, hsq⟩ := queueFind_some hq
    obtain ⟨n1, t1, m, o, hl, hs, hr, _⟩ := h.inv.response (look_of_mem h.inv.nodupResps he)
    exact ⟨_, rx, n1, t1, m, hk, (hl.tally.info _ _ _).mpr rfl, hrx, hr, by rw [← hs.seq, hsq], rfl⟩
  case resend ep k e l m' hb hf _ _ hl =>
    refine h.more hs0 l rfl ?_ trivial
    obtain ⟨r, hr⟩ : ∃ r, Repeats ep.log k e.id r := h.ph
    obtain ⟨n1, t1, m, o, hlf, hs, hrr, _⟩ := h.inv.response (ep := ep) (id := e.id) (e := e) hf
    have hr' : Repeats ep.log k e.id e.m.remote := by
      obtain ⟨rx, n1', t1', m', h1, h2, h3, h4, h5, _⟩ := hr
      have hi := (hlf.tally.info _ _ _).mp h2
      simp only [Stage.info, Option.some.injEq, Prod.mk.injEq] at hi
      obtain ⟨_, _, rfl⟩ := hi
      exact ⟨rx, n1', t1', _, h1, h2, h3, h4, h5, hs.remote.symm⟩
    intro x hx
    rcases hl with ⟨rfl, _⟩ | ⟨o, ok, _, rfl⟩
    · cases hx
    · rw [List.mem_singleton.mp hx]
      exact hr'.grow _

end Verif
