/-
Properties of the endpoint: the life of a message (C46, C47, C58), queues (C53).
-/
import Verif.EndpointPeer2

namespace Verif

theorem Reached.busy {ep : Ep} (h : Reached ep) : ep.busy = [] := by
  induction h with
  | create => rfl
  | op o _ h ih => exact (step_tops h ih).1
  | rx m r _ h ih => exact (handleRx_tops h ih).1

/-- An invariant of the small steps holds in all reachable states. -/
theorem Reached.invariant {I : Ep × Ph → Prop} (hI : ∀ a b, I a → Micro a b → I b)
    (h0 : ∀ cfg n1 t1 keepResp unixTime now, I (Ep.create cfg n1 t1 keepResp unixTime now, {})) {ep : Ep}
    (h : Reached ep) : I (ep, {}) := by
  induction h with
  | create => exact h0 ..
  | op o hr h ih => exact (step_tops h hr.busy).2.invariant hI ih
  | rx m r hr h ih => exact (handleRx_tops h hr.busy).2.invariant hI ih

theorem Reached.inv {ep : Ep} (h : Reached ep) : Inv (ep, {}) :=
  h.invariant (fun _ _ h hs => h.step hs) fun _ _ _ _ _ _ => Inv.init rfl rfl rfl fun _ h _ => by cases List.mem_singleton.mp h; exact id

theorem Reached.exec {ops : List Op} {ep ep' : Ep} (h0 : Reached ep) (h : Verif.exec ops ep = .ok ep') : Reached ep' := by
  induction ops generalizing ep with
  | nil => cases h; exact h0
  | cons op ops ih =>
    obtain ⟨ep1, h1, h⟩ := Res.bind_eq_ok h
    exact ih (.op op h0 h1) h

/-- What the log and the queues say about a message, at the end of a history. -/
theorem Reached.stage {ep : Ep} (h : Reached ep) (id : Nat) : ∃ s, Life id ep.log s ∧ Tally id ep.log s ∧
    Fits (look ep.reqs id) (look ep.resps id) none none s := by
  obtain ⟨s, h1, h2, _⟩ := h.inv.life id
  exact ⟨s, h1, h1.tally, h2⟩

theorem pending_iff {ep : Ep} {id} : ep.pending id ↔ ∃ e, look ep.reqs id = some e := by
  constructor
  · rintro ⟨e, he, rfl⟩
    cases h : look ep.reqs e.id with
    | none => exact absurd (List.mem_map_of_mem he) (look_eq_none h)
    | some x => exact ⟨x, rfl⟩
  · rintro ⟨e, he⟩
    exact ⟨e, look_eq_some he⟩

theorem keeps_iff {ep : Ep} {id} : ep.keeps id ↔ ∃ e, look ep.resps id = some e := by
  constructor
  · rintro ⟨e, he, rfl⟩
    cases h : look ep.resps e.id with
    | none => exact absurd (List.mem_map_of_mem he) (look_eq_none h)
    | some x => exact ⟨x, rfl⟩
  · rintro ⟨e, he⟩
    exact ⟨e, look_eq_some he⟩

theorem Life.zero {id log s n1 t1 m} (h : Life id log s) (hi : s.info = some (n1, t1, m)) (hz : n1 = 0 ∨ t1 = 0) :
    (∀ a b c, s = .leaked a b c → Event.returned id none ∈ log) ∧
    (∀ a b c d, s = .over a b c d → ∃ e, Event.returned id (some e) ∈ log) := by
  induction h with
  | nil => exact ⟨fun _ _ _ h => (by cases h), fun _ _ _ _ h => (by cases h)⟩
  | @cons l s e s' hl hn ih =>
    have hg := hl.tally.good
    cases hn
    case other =>
      obtain ⟨h1, h2⟩ := ih hi
      exact ⟨fun a b c h => .tail _ (h1 a b c h), fun a b c d h => (h2 a b c d h).imp fun _ h => .tail _ h⟩
    case fail => exact ⟨fun _ _ _ h => (by cases h), fun _ _ _ _ _ => ⟨_, .head _⟩⟩
    case noQueue => exact ⟨fun _ _ _ _ => .head _, fun _ _ _ _ h => (by cases h)⟩
    case noQueueReported => exact ⟨fun _ _ _ _ => .head _, fun _ _ _ _ h => (by cases h)⟩
    all_goals
      simp only [Stage.info, Option.some.injEq, Prod.mk.injEq] at hi
      obtain ⟨rfl, rfl, rfl⟩ := hi
      simp only [Stage.good] at hg
      first
      | (exfalso; omega)
      | simp only [reduceCtorEq, false_implies, implies_true, and_self]

namespace Props

/-! ### C46: bounded identical retransmission -/

/-- C46.  A message that is passed to osmo_pfcp_endpoint_tx() when the configured number of
retransmissions is `n1` is handed to the socket at most 1 + `n1` times (for a response: not counting
answers to duplicates); always its encoding, to its destination; and never after its response was
received, its failure was reported, or it was removed. -/
theorem C46_bounded_identical {ep : Ep} (h : Reached ep) {id n1 t1 m} (hp : Event.passed id n1 t1 m ∈ ep.log) :
    (transmissions id ep.log).length ≤ 1 + n1 ∧
    (∀ x ∈ transmissions id ep.log, x.1 = m.remote ∧ m.encode = .ok x.2) ∧
    ∀ l2 e l1, ep.log = l2 ++ e :: l1 → Ends id e → transmissions id l2 = [] := by
  obtain ⟨s, hl, ht, _⟩ := h.stage id
  have hi := (ht.info n1 t1 m).mp hp
  have := ht.room n1 t1 m hi
  refine ⟨by omega, ht.same n1 t1 m hi, ?_⟩
  intro l2 e l1 he hends
  rw [he] at hl
  exact (hl.ended hends).2

/-- C46: all transmissions of a message are the same. -/
theorem C46_same_octets {ep : Ep} (h : Reached ep) {id} {x y : Sockaddr × List UInt8}
    (hx : x ∈ transmissions id ep.log) (hy : y ∈ transmissions id ep.log) : x = y := by
  obtain ⟨s, hl, ht, _⟩ := h.stage id
  cases hi : s.info with
  | none =>
    have : s = .unseen := by cases s <;> first | rfl | simp [Stage.info] at hi
    rw [ht.unseen this] at hx
    cases hx
  | some i =>
    obtain ⟨n1, t1, m⟩ := i
    obtain ⟨a1, a2⟩ := ht.same n1 t1 m hi x hx
    obtain ⟨b1, b2⟩ := ht.same n1 t1 m hi y hy
    rw [a2] at b2
    injection b2 with b2
    exact Prod.ext (a1.trans b1.symm) b2

/-- C46: a request that is still waited for has been sent, and has as many retransmissions left as were
not used. -/
theorem C46_remaining {ep : Ep} (h : Reached ep) {e} (he : e ∈ ep.reqs) :
    ∃ n1 t1 m, Event.passed e.id n1 t1 m ∈ ep.log ∧ (transmissions e.id ep.log).length + e.n1 = 1 + n1 ∧
      ∀ x ∈ transmissions e.id ep.log, x = (e.m.remote, e.m.encoded.getD []) := by
  obtain ⟨n1, t1, m, o, hl, hs, _⟩ := h.inv.request (look_of_mem h.inv.nodupReqs he) rfl
  have ht := hl.tally
  refine ⟨n1, t1, m, (ht.info _ _ _).mpr rfl, hl.exact rfl rfl, ?_⟩
  intro x hx
  obtain ⟨a1, a2⟩ := ht.same n1 t1 m rfl x hx
  have hg := ht.good.1
  rw [hg] at a2
  cases a2
  rw [hs.remote, hs.encoded]
  exact Prod.ext a1 rfl


/-! ### Concrete histories, to show that the hypotheses can be met -/

/-- A peer. -/
def exRemote : Sockaddr := .inet 0x7f000001 8805
/-- A request with a resp_cb(). -/
def exReq : PMsg := { heartbeatReq exRemote 7 with ctx := { respCb := some (.app 1) } }
/-- A new endpoint: N1 = 2, T1 = 100 ms, responses are kept for 1 s. -/
def exEp : Ep := Ep.create { nodeId := .v4 (.inet 0x7f000002 0) } 2 100 1000 0 0
/-- The request is sent. -/
def exSend : List Op := [.app (.bind true (.tx exReq true .done .done))]
/-- The timer expires. -/
def exTimer : List Op := [.advance 100, .reqTimer 0 true .done]
/-- The octets of the request. -/
def exOctets : List UInt8 := [32, 1, 0, 12, 0, 0, 1, 0, 0, 96, 0, 4, 0, 0, 0, 7]
/-- The octets of a response. -/
def exRespOctets : List UInt8 := [32, 2, 0, 12, 0, 0, 1, 0, 0, 96, 0, 4, 0, 0, 0, 9]
/-- The response arrives. -/
def exResp : List Op := [.rx exRemote exRespOctets []]

/-- What can be seen of message `id` after a history: transmissions, calls of resp_cb(), number of times it
was freed and dropped, pending requests and kept responses. -/
def obs (id : Nat) : Res Ep →
    Option (List (Sockaddr × List UInt8) × List (Option Nat) × Nat × Nat × List Nat × List Nat)
  | .ok ep => some (transmissions id ep.log, respCalls id ep.log, frees id ep.log, drops id ep.log,
      ep.reqs.map (·.id), ep.resps.map (·.id))
  | _ => none

/-- Sent, two retransmissions, then failure is reported once and the request is freed. -/
example : obs 0 (exec (exSend ++ exTimer ++ exTimer ++ exTimer) exEp) =
    some ([(exRemote, exOctets), (exRemote, exOctets), (exRemote, exOctets)], [none], 1, 0, [], []) := by rfl

/-- Sent, one retransmission, then the response (message number 1) arrives. -/
example : obs 0 (exec (exSend ++ exTimer ++ exResp) exEp) =
    some ([(exRemote, exOctets), (exRemote, exOctets)], [some 1], 1, 0, [], []) := by
  set_option maxRecDepth 100000 in rfl

theorem exEp_reached : Reached exEp := .create ..

/-- The hypotheses of the theorems about passed messages are met: the request is passed with N1 = 2. -/
example : ∃ ep n1 t1 m, exec (exSend ++ exTimer) exEp = .ok ep ∧ Event.passed 0 n1 t1 m ∈ ep.log ∧ n1 = 2 ∧ t1 = 100 ∧
    ep.pending 0 :=
  ⟨_, _, _, _, rfl, .tail _ (.tail _ (.tail _ (.head _))), rfl, rfl, _, .head _, rfl⟩

/-! ### C47: the response callback -/

/-- C47: resp_cb() is called at most once. -/
theorem C47_at_most_once {ep : Ep} (h : Reached ep) (id : Nat) : (respCalls id ep.log).length ≤ 1 := by
  obtain ⟨s, hl, ht, _⟩ := h.stage id
  rw [ht.calls]
  cases s <;> simp only [Stage.calls] <;> first | omega | exact Bool.toNat_le _ | skip
  split <;> first | omega | exact Bool.toNat_le _

/-- C47: a message without resp_cb(), or a response, or a message that was not passed, causes no call. -/
theorem C47_none {ep : Ep} (h : Reached ep) {id} (hn : ∀ n1 t1 m, Event.passed id n1 t1 m ∈ ep.log → m.wantsCb = false) :
    respCalls id ep.log = [] := by
  obtain ⟨s, hl, ht, _⟩ := h.stage id
  apply List.length_eq_zero_iff.mp
  rw [ht.calls]
  have hw : ∀ n1 t1 m, s.info = some (n1, t1, m) → m.wantsCb = false := fun n1 t1 m hi =>
    hn n1 t1 m ((ht.info n1 t1 m).mpr hi)
  have hg := ht.good
  cases s <;> simp_all [Stage.calls, Stage.info, Stage.good, PMsg.wantsCb]
  case over n1 t1 m d hf =>
    cases d
    · show (!m.isResponse && m.hasCb).toNat = 0
      cases h1 : m.isResponse <;> simp_all
    · rfl

/-- C47, apart from osmo_pfcp_endpoint_close(): for a request with a resp_cb(), either the endpoint still
waits for the response, or resp_cb() was called exactly once, or the request was removed by
osmo_pfcp_endpoint_close().  The full statement, without the last case, is false: see
`C47_close_without_callback`. -/
theorem C47_exactly_once_partial {ep : Ep} (h : Reached ep) {id n1 t1 m} (hp : Event.passed id n1 t1 m ∈ ep.log)
    (hr : m.isResponse = false) (hc : m.hasCb = true) :
    (ep.pending id ∧ (respCalls id ep.log).length = 0 ∧ drops id ep.log = 0) ∨
    (¬ ep.pending id ∧ (respCalls id ep.log).length = 1 ∧ drops id ep.log = 0) ∨
    (¬ ep.pending id ∧ (respCalls id ep.log).length = 0 ∧ drops id ep.log = 1) := by
  obtain ⟨s, hl, ht, hf⟩ := h.stage id
  have hi := (ht.info n1 t1 m).mp hp
  rw [ht.calls, ht.drops, pending_iff]
  have hw := PMsg.yes_wantsCb hr hc
  cases s <;> simp only [Stage.info, Option.some.injEq, Prod.mk.injEq, reduceCtorEq] at hi
  case waiting =>
    obtain ⟨_, _, _, e, he, _⟩ := hf
    exact .inl ⟨⟨e, he⟩, rfl, rfl⟩
  case kept =>
    obtain ⟨_, _, hm, _⟩ := hf
    obtain ⟨_, _, rfl⟩ := hi
    rw [hr] at hm; cases hm
  case leaked =>
    obtain ⟨_, _, rfl⟩ := hi
    refine .inr (.inl ⟨?_, by simp [Stage.calls, hw], rfl⟩)
    rintro ⟨e, he⟩; rw [hf.1] at he; cases he
  case over d =>
    obtain ⟨_, _, rfl⟩ := hi
    have hn : ¬ ∃ e, look ep.reqs id = some e := by rintro ⟨e, he⟩; rw [hf.1] at he; cases he
    cases d
    · exact .inr (.inl ⟨hn, by simp [Stage.calls, hw], rfl⟩)
    · exact .inr (.inr ⟨hn, rfl, rfl⟩)
  all_goals exfalso; simp [Fits] at hf

/-- C47 is false when the endpoint is closed (or bound again) while a request is pending: the application
is never told what became of the request, although the endpoint no longer waits for its response. -/
theorem C47_close_without_callback :
    ∃ ep, exec (exSend ++ [.app (.close .done)]) exEp = .ok ep ∧ (∃ n1 t1 m, Event.passed 0 n1 t1 m ∈ ep.log ∧
      m.isResponse = false ∧ m.hasCb = true) ∧ ¬ ep.pending 0 ∧ respCalls 0 ep.log = [] := by
  refine ⟨_, rfl, ⟨_, _, _, .tail _ (.tail _ (.tail _ (.tail _ (.head _)))), rfl, rfl⟩, ?_, rfl⟩
  rintro ⟨e, he, _⟩
  cases he

/-! ### C58: ownership -/

/-- C58: no message is freed twice; messages that were not passed to osmo_pfcp_endpoint_tx() are not freed
by the endpoint. -/
theorem C58_at_most_once {ep : Ep} (h : Reached ep) (id : Nat) :
    frees id ep.log ≤ 1 ∧ ((∀ n1 t1 m, Event.passed id n1 t1 m ∉ ep.log) → frees id ep.log = 0) := by
  obtain ⟨s, hl, ht, _⟩ := h.stage id
  rw [ht.frees]
  refine ⟨by cases s <;> simp [Stage.frees], fun hn => ?_⟩
  have hno : s.info = none := by
    cases hi : s.info with
    | none => rfl
    | some i => exact absurd ((ht.info i.1 i.2.1 i.2.2).mpr hi) (hn _ _ _)
  cases s <;> simp_all [Stage.info, Stage.frees]

/-- C58, if N1 and T1 are not zero: a message that was passed is either queued, or has been freed exactly
once.  For zero N1 or T1 this is false: see `C58_not_freed`. -/
theorem C58_exactly_once_partial {ep : Ep} (h : Reached ep) {id n1 t1 m} (hp : Event.passed id n1 t1 m ∈ ep.log)
    (hn : n1 ≠ 0) (ht1 : t1 ≠ 0) :
    ((ep.pending id ∨ ep.keeps id) ∧ frees id ep.log = 0) ∨ (¬ (ep.pending id ∨ ep.keeps id) ∧ frees id ep.log = 1) := by
  obtain ⟨s, hl, ht, hf⟩ := h.stage id
  have hi := (ht.info n1 t1 m).mp hp
  have hg := ht.good
  rw [ht.frees, pending_iff, keeps_iff]
  cases s <;> simp only [Stage.info, Option.some.injEq, Prod.mk.injEq, reduceCtorEq] at hi
  case waiting =>
    obtain ⟨_, _, _, e, he, _⟩ := hf
    exact .inl ⟨.inl ⟨e, he⟩, rfl⟩
  case kept =>
    obtain ⟨_, _, _, e, he, _⟩ := hf
    exact .inl ⟨.inr ⟨e, he⟩, rfl⟩
  case leaked =>
    obtain ⟨rfl, rfl, rfl⟩ := hi
    simp only [Stage.good] at hg
    omega
  case over d =>
    refine .inr ⟨?_, rfl⟩
    rintro (⟨e, he⟩ | ⟨e, he⟩)
    · rw [hf.1] at he; cases he
    · rw [hf.2.1] at he; cases he
  all_goals exfalso; simp [Fits] at hf

/-- C58: if N1 or T1 is zero, a message whose transmission fails is freed; one that is sent is not freed,
and not queued either. -/
theorem C58_zero_timers {ep : Ep} (h : Reached ep) {id n1 t1 m} (hp : Event.passed id n1 t1 m ∈ ep.log)
    (hz : n1 = 0 ∨ t1 = 0) : ¬ ep.pending id ∧ ¬ ep.keeps id ∧
    ((Event.returned id none ∈ ep.log ∧ frees id ep.log = 0) ∨
     ((∃ e, Event.returned id (some e) ∈ ep.log) ∧ frees id ep.log = 1)) := by
  obtain ⟨s, hl, ht, hf⟩ := h.stage id
  have hi := (ht.info n1 t1 m).mp hp
  have hg := ht.good
  have hz' := hl.zero hi hz
  rw [pending_iff, keeps_iff, ht.frees]
  cases s <;> simp only [Stage.info, Option.some.injEq, Prod.mk.injEq, reduceCtorEq] at hi
  case waiting => obtain ⟨rfl, rfl, rfl⟩ := hi; simp only [Stage.good] at hg; omega
  case kept => obtain ⟨rfl, rfl, rfl⟩ := hi; simp only [Stage.good] at hg; omega
  case leaked =>
    rw [hf.1, hf.2.1]
    exact ⟨by simp, by simp, .inl ⟨hz'.1 _ _ _ rfl, rfl⟩⟩
  case over =>
    rw [hf.1, hf.2.1]
    exact ⟨by simp, by simp, .inr ⟨hz'.2 _ _ _ _ rfl, rfl⟩⟩
  all_goals exfalso; simp [Fits] at hf

/-- C58: with T1 = 0, a message that is sent is never freed, although it is not queued (the memory is held
until the endpoint is freed). -/
theorem C58_not_freed :
    ∃ ep, exec exSend { exEp with t1 := 0 } = .ok ep ∧ frees 0 ep.log = 0 ∧ ¬ ep.pending 0 ∧ ¬ ep.keeps 0 ∧
      Event.returned 0 none ∈ ep.log := by
  refine ⟨_, rfl, rfl, ?_, ?_, .head _⟩
  · rintro ⟨e, he, _⟩; cases he
  · rintro ⟨e, he, _⟩; cases he

/-- C58: when osmo_pfcp_endpoint_tx() reports failure, the message has been freed. -/
theorem C58_failure_frees {ep : Ep} (h : Reached ep) {id e} (hr : Event.returned id (some e) ∈ ep.log) :
    frees id ep.log = 1 := by
  obtain ⟨s, hl, ht, hf⟩ := h.stage id
  rw [ht.frees]
  clear ht hf
  have hover : (∃ n1 t1 m, s = .over n1 t1 m false) := by
    generalize ep.log = log at hl hr
    induction hl with
    | nil => cases hr
    | @cons l s x s' hl hn ih =>
      rcases List.mem_cons.mp hr with rfl | hr
      · cases hn
        case other ha => exact absurd rfl ha
        case fail => exact ⟨_, _, _, rfl⟩
      · obtain ⟨n1, t1, m, rfl⟩ := ih hr
        cases hn
        exact ⟨_, _, _, rfl⟩
  obtain ⟨_, _, _, rfl⟩ := hover
  rfl

/-! ### C53: queues -/

/-- C53: the request queue holds requests and the response queue responses, all with running timers. -/
theorem C53_queues {ep : Ep} (h : Reached ep) :
    (∀ e ∈ ep.reqs, e.m.isResponse = false ∧ e.timer.isSome) ∧
    (∀ e ∈ ep.resps, e.m.isResponse = true ∧ e.timer.isSome) := by
  constructor
  · intro e he
    obtain ⟨n1, t1, m, o, _, hs, hr, _, ht, _⟩ := h.inv.request (look_of_mem h.inv.nodupReqs he) rfl
    exact ⟨hs.isResponse.trans hr, ht⟩
  · intro e he
    obtain ⟨n1, t1, m, o, _, hs, hr, _, ht, _⟩ := h.inv.response (look_of_mem h.inv.nodupResps he)
    exact ⟨hs.isResponse.trans hr, ht⟩

/-- C53: osmo_pfcp_endpoint_retrans_queue_is_busy() tells whether something is queued. -/
theorem C53_is_busy (ep : Ep) : ep.isBusy = true ↔ ∃ id, ep.pending id ∨ ep.keeps id := by
  unfold Ep.isBusy Ep.pending Ep.keeps
  cases h1 : ep.reqs <;> cases h2 : ep.resps <;> simp
  exact ⟨_, .inl (.inl rfl)⟩

/-- C53: osmo_pfcp_endpoint_close() empties both queues and closes the socket; between callbacks it cannot
go wrong. -/
theorem C53_close {ep : Ep} (h : Reached ep) :
    ∃ ep', ep.close = .ok ep' ∧ ep'.isBusy = false ∧ ep'.sock = false ∧
      ∀ id, ep.pending id ∨ ep.keeps id → frees id ep'.log = 1 ∧ drops id ep'.log = 1 := by
  obtain ⟨us, hc⟩ := h.both.use.close_total h.busy
  refine ⟨_, hc, rfl, rfl, ?_⟩
  intro id hq
  have hm : id ∈ (ep.reqs ++ ep.resps).map (·.id) := by
    rw [List.map_append, List.mem_append]
    rcases hq with ⟨e, he, rfl⟩ | ⟨e, he, rfl⟩
    · exact .inl (List.mem_map_of_mem he)
    · exact .inr (List.mem_map_of_mem he)
  have hex : ∃ s, Life id ep.log s ∧
      ((∃ n1 t1 m o left, s = .waiting n1 t1 m o left) ∨ (∃ n1 t1 m o, s = .kept n1 t1 m o)) := by
    rcases hq with ⟨e, he, rfl⟩ | ⟨e, he, rfl⟩
    · obtain ⟨n1, t1, m, o, hl, _⟩ := h.inv.request (look_of_mem h.inv.nodupReqs he) rfl
      exact ⟨_, hl, .inl ⟨_, _, _, _, _, rfl⟩⟩
    · obtain ⟨n1, t1, m, o, hl, _⟩ := h.inv.response (look_of_mem h.inv.nodupResps he)
      exact ⟨_, hl, .inr ⟨_, _, _, _, rfl⟩⟩
  obtain ⟨s, hl, hs⟩ := hex
  obtain ⟨n1, t1, m, hl'⟩ := drop_queued hl hm h.inv.nodupBoth hs
  have ht := hl'.tally
  exact ⟨ht.frees, ht.drops⟩

/-- C53: the assertions in the timer callbacks never fail: what expires in the request queue is a request,
so that pfcp_queue_sent_req_timer_cb() can only abort if the application's callback does; and likewise
for responses, where there is no callback. -/
theorem C53_timer_assertions {ep : Ep} (h : Reached ep) (id : Nat) (io : Bool) (a : App) :
    (ep.reqTimer id io a.run = .abort → ∃ ep1, a.run ep1 = .abort) ∧ ep.respTimer id ≠ .abort := by
  constructor
  · intro ha
    unfold Ep.reqTimer at ha
    cases hf : ep.reqs.find? (fun e => e.id = id) with
    | none => rw [hf] at ha; cases ha
    | some e =>
      rw [hf] at ha
      dsimp only at ha
      obtain ⟨he, rfl⟩ := find_id hf
      obtain ⟨hr, _⟩ := (C53_queues h).1 e he
      split at ha
      · cases ha
      rw [if_neg (by simp [hr])] at ha
      obtain ⟨n1, t1, m, o, _, hs, _⟩ := h.inv.request (look_of_mem h.inv.nodupReqs he) rfl
      have hk := h.inv.sockOn (look_of_mem h.inv.nodupReqs he)
      cases h1 : ({ ep with reqs := setEntry ep.reqs { e with timer := none } } : Ep).retrans { e with timer := none } io with
      | ok r =>
        obtain ⟨ep1, keep⟩ := r
        rw [h1] at ha
        simp only [Res.bind] at ha
        obtain ⟨hb, e1, he1, hi1, hc1⟩ := h.both.retrans he h1
        split at ha
        · cases ha
        · refine hb.giveUp_abort (e := e1) (a := a) he1 ?_
          have : e1.m.hasCb = e.m.hasCb := by unfold PMsg.hasCb; rw [hc1]
          rw [hi1, hc1, this]
          exact ha
      | abort =>
        exfalso
        unfold Ep.retrans at h1
        by_cases hn : e.n1 = 0
        · simp [hn] at h1
        · rw [if_neg hn] at h1
          simp only [Ep.sendMsg, hs.encode, hk, if_true] at h1
          cases io
          · simp only [Res.bind, Bool.false_eq_true, if_false] at h1
            cases h1
          · simp only [Res.bind, if_true] at h1
            cases h1
      | err x => rw [h1] at ha; cases ha
      | ub => rw [h1] at ha; cases ha
      | diverge => rw [h1] at ha; cases ha
  · unfold Ep.respTimer
    cases hf : ep.resps.find? (fun e => e.id = id) with
    | none => simp
    | some e =>
      obtain ⟨he, rfl⟩ := find_id hf
      obtain ⟨hr, _⟩ := (C53_queues h).2 e he
      obtain ⟨x, hq⟩ := h.both.use.queueDel_total e.id
      simp only [hr, not_true_eq_false, if_false, hq]
      split <;> simp

/-- C53: an endpoint receives only if there is an rx_msg_cb(), so that the assertion in the socket callback
never fails; and nothing is queued while the socket is closed. -/
theorem C53_receives {ep : Ep} (h : Reached ep) :
    (ep.sock = true → ep.cfg.hasRx = true) ∧ (ep.isBusy = true → ep.sock = true) := by
  constructor
  · refine h.invariant (I := fun x => x.1.sock = true → x.1.cfg.hasRx = true) ?_ ?_
    · intro a b hi hs
      cases hs <;> simp_all [Ep.logs, Ep.note, Ep.dropCtx, Ep.closed, Ep.enqueue]
      case txQueued => split <;> simp_all
    · intro _ _ _ _ _ _ hx
      cases hx
  · intro hb
    apply h.inv.sock
    obtain ⟨id, ⟨e, he, _⟩ | ⟨e, he, _⟩⟩ := (C53_is_busy ep).mp hb
    · exact .inl (List.ne_nil_of_mem he)
    · exact .inr (List.ne_nil_of_mem he)

end Props
end Verif
