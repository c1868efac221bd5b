/-
Properties of the endpoint: time (C55).
-/
import Verif.EndpointTime
import Verif.PropsEndpoint4

namespace Verif

/-! ### The clock only advances between operations -/

/-- No time passes. -/
def Still (f : Ep → Res Ep) : Prop := ∀ a b, f a = .ok b → b.now = a.now

theorem sendMsg_now {ep : Ep} {why id m io r} (h : ep.sendMsg why id m io = .ok r) : r.1.now = ep.now := by
  rcases sendMsg_ok h with ⟨o, _, _, _, rfl⟩ | ⟨l, e, enc, _, _, rfl⟩ <;> rfl

theorem using_now {ep ep' : Ep} {id f} (hf : Still f) (h : ep.using id f = .ok ep') : ep'.now = ep.now := by
  obtain ⟨x, h1, h2⟩ := Res.bind_eq_ok h
  cases h2
  have := hf _ _ h1
  exact this

theorem run_now (a : App) : Still a.run := fun _ _ h => (run_api a _ _ h).now

theorem reqTimer_now {ep ep' : Ep} {id io cb} (hcb : Still cb) (h : ep.reqTimer id io cb = .ok ep') : ep'.now = ep.now := by
  unfold Ep.reqTimer at h
  split at h
  · cases h; rfl
  split at h
  · cases h; rfl
  split at h
  · cases h
  obtain ⟨⟨ep1, keep⟩, h1, h⟩ := Res.bind_eq_ok h
  have hn : ep1.now = ep.now := by
    unfold Ep.retrans at h1
    split at h1
    · cases h1; rfl
    · obtain ⟨⟨ep2, m2, rc⟩, h2, h1⟩ := Res.bind_eq_ok h1
      have := sendMsg_now h2
      cases rc <;> cases h1 <;> exact this
  dsimp only at h
  split at h
  · cases h; exact hn
  · obtain ⟨ep2, h2, h⟩ := Res.bind_eq_ok h
    have hn2 : ep2.now = ep1.now := by
      split at h2
      · refine Eq.trans (using_now ?_ h2) rfl
        intro a b hab
        split at hab
        · exact (assocResp_api ok_api hab).now
        · exact hcb _ _ hab
      · cases h2; rfl
    split at h
    · exact (queueDel_api h).now.trans (hn2.trans hn)
    · cases h

theorem respTimer_now {ep ep' : Ep} {id} (h : ep.respTimer id = .ok ep') : ep'.now = ep.now := by
  unfold Ep.respTimer at h
  split at h
  · cases h; rfl
  split at h
  · cases h; rfl
  split at h
  · cases h
  · exact (queueDel_api h).now

theorem peerTimer_now {ep ep' : Ep} {fi io} (h : ep.peerTimer fi io = .ok ep') : ep'.now = ep.now := by
  unfold Ep.peerTimer at h
  split at h
  · cases h; rfl
  split at h
  · cases h; rfl
  dsimp only at h
  split at h
  · exact (assocStart_api h).now
  · cases h; rfl

theorem setCtx_now {ep ep' : Ep} {k q r} (h : ep.setCtx k q r = .ok ep') : ep'.now = ep.now := by
  unfold Ep.setCtx at h
  split at h
  · exact (run_now _ _ _ h).trans rfl
  · cases h; rfl

theorem dispatch_now {ep ep' : Ep} {k q r} (h : ep.dispatch k q r = .ok ep') : ep'.now = ep.now :=
  (run_now _ _ _ h).trans rfl

theorem handleRx_now {ep ep' : Ep} {m r} (h : ep.handleRx m r = .ok ep') : ep'.now = ep.now := by
  unfold Ep.handleRx at h
  obtain ⟨ep1, h1, h⟩ := Res.bind_eq_ok h
  have hn : ep1.now = ep.now := by
    unfold Ep.heartbeatReply at h1
    split at h1
    · obtain ⟨⟨ep2, m2, rc⟩, h2, h1⟩ := Res.bind_eq_ok h1
      cases h1
      exact sendMsg_now h2
    · cases h1; rfl
  rw [← hn]
  obtain ⟨ep9, h, h9⟩ := Res.bind_eq_ok h
  have hn9 : ep'.now = ep9.now := by rw [(releaseUses_ok h9).1]
  rw [hn9]
  unfold Ep.handleMsg at h
  split at h
  · split at h
    · unfold Ep.handleResponse at h
      obtain ⟨ep2, h2, h⟩ := Res.bind_eq_ok h
      split at h
      · refine Eq.trans (queueDel_api h).now (using_now ?_ h2)
        intro a b hab
        obtain ⟨c, hc, hab⟩ := Res.bind_eq_ok hab
        have hn1 := setCtx_now hc
        split at hab
        · obtain ⟨⟨d, rc⟩, hd, hab⟩ := Res.bind_eq_ok hab
          have hn2 := (respCall_api hd).1.now
          dsimp only at hab hn2
          split at hab
          · cases hab; exact hn2.trans hn1
          · exact (dispatch_now hab).trans (hn2.trans hn1)
        · exact (dispatch_now hab).trans hn1
      · cases h
    · unfold Ep.handleDuplicate at h
      obtain ⟨ep2, h2, h⟩ := Res.bind_eq_ok h
      have hn2 := using_now (fun _ _ h => setCtx_now h) h2
      split at h
      · cases h
      · obtain ⟨⟨ep3, m3, rc⟩, h3, h⟩ := Res.bind_eq_ok h
        cases h
        exact (sendMsg_now h3).trans hn2
  · obtain ⟨ep2, h2, h⟩ := Res.bind_eq_ok h
    exact (dispatch_now h).trans (setCtx_now h2)

theorem handleAll_now {remote} : ∀ {l : List Rx} {rs} {ep ep' : Ep}, ep.handleAll remote l rs = .ok ep' → ep'.now = ep.now
  | [], _, ep, ep', h => by cases h; rfl
  | ⟨_, none⟩ :: l, rs, ep, ep', h => handleAll_now (l := l) h
  | ⟨d, some ies⟩ :: l, rs, ep, ep', h => by
    obtain ⟨ep1, h1, h⟩ := Res.bind_eq_ok h
    exact (handleAll_now h).trans (handleRx_now h1)

theorem step_now {op : Op} {ep ep' : Ep} (hop : ∀ ms, op ≠ .advance ms) (h : op.step ep = .ok ep') : ep'.now = ep.now := by
  cases op with
  | app a => exact run_now a _ _ h
  | rx remote d rs =>
    have h : ep.rxDatagram remote d rs = .ok ep' := h
    unfold Ep.rxDatagram at h
    dsimp only at h
    split at h
    · cases h; rfl
    split at h
    · cases h
    obtain ⟨l, _, h⟩ := Res.bind_eq_ok h
    exact handleAll_now h
  | advance ms => exact absurd rfl (hop ms)
  | reqTimer id io f => exact reqTimer_now (run_now f) h
  | respTimer id => exact respTimer_now h
  | peerTimer fi io => exact peerTimer_now h

theorem Micro.now {a b : Ep × Ph} (h : Micro a b) : a.1.now ≤ b.1.now := by
  cases h <;> simp [Ep.logs, Ep.note, Ep.dropCtx, Ep.closed]
  case txQueued => unfold Ep.enqueue; split <;> simp

/-! ### The invariant -/

theorem Steps.timeInv {P : Prop} {a b : Ep × Ph} (h : Steps a b) (h0 : TimeInv P a) (hn : P → b.1.now ≤ a.1.now) :
    TimeInv P b ∧ a.1.now ≤ b.1.now := by
  induction h with
  | refl => exact ⟨h0, Nat.le_refl _⟩
  | snoc hs hm ih =>
    have h1 := hm.now
    obtain ⟨i1, i2⟩ := ih fun hp => Nat.le_trans h1 (hn hp)
    refine ⟨i1.step hm fun hp => ?_, Nat.le_trans i2 h1⟩
    have := hn hp
    omega

theorem TimeInv.create (P : Prop) (cfg n1 t1 keepResp unixTime now) : TimeInv P (Ep.create cfg n1 t1 keepResp unixTime now, {}) := by
  refine ⟨(Reached.create ..).inv, rfl, fun e he => ?_, fun e he => ?_, ⟨trivial, trivial⟩, ?_⟩
  · cases he
  · cases he
  · intro id _ _ m hp
    cases List.mem_singleton.mp hp

theorem Reached.timeInv {ep : Ep} (h : Reached ep) : TimeInv False (ep, {}) := by
  induction h with
  | create => exact .create ..
  | op o h0 h ih => exact ((step_tops h h0.busy).2.timeInv ih False.elim).1
  | rx m r h0 h ih => exact ((handleRx_tops h h0.busy).2.timeInv ih False.elim).1

theorem Punctual.reached {ep : Ep} (h : Punctual ep) : Reached ep := by
  induction h with
  | create => exact .create ..
  | op o _ _ h ih => exact .op o ih h
  | rx m r _ h ih => exact .rx m r ih h
  | advance ms _ _ ih => exact .op (.advance ms) ih rfl

theorem Punctual.timeInv {ep : Ep} (h : Punctual ep) : TimeInv True (ep, {}) := by
  induction h with
  | create => exact .create ..
  | op o h0 ho h ih => exact ((step_tops h h0.reached.busy).2.timeInv ih fun _ => Nat.le_of_eq (step_now ho h)).1
  | rx m r h0 h ih => exact ((handleRx_tops h h0.reached.busy).2.timeInv ih fun _ => Nat.le_of_eq (handleRx_now h)).1
  | @advance ep ms h0 hd ih =>
    refine ⟨(h0.advance ms hd).reached.inv, ih.timers, ?_, ?_, ih.events, ?_⟩
    · intro e he
      obtain ⟨t, v, k, h1, h2⟩ := ih.reqs e he
      exact ⟨t, v, k, h1, fun d hde => ⟨(h2 d hde).1, fun _ => hd e (List.mem_append_left _ he) d hde⟩⟩
    · intro e he
      obtain ⟨t, v, k, h1, h2⟩ := ih.resps e he
      exact ⟨t, v, k, h1, fun d hde => ⟨(h2 d hde).1, fun _ => hd e (List.mem_append_right _ he) d hde⟩⟩
    · intro id n1' t1' m hp hr hf hdr t v k hls
      exact Nat.le_trans (ih.done id n1' t1' m hp hr hf hdr t v k hls) (Nat.le_add_right ..)

/-- The log begins with the configuration. -/
theorem Reached.begins {ep : Ep} (h : Reached ep) : ∃ l n1 t1 k, ep.log = l ++ [.config n1 t1 k] := by
  have : ∀ {a b : Ep × Ph}, Steps a b → (∃ l n1 t1 k, a.1.log = l ++ [Event.config n1 t1 k]) →
      ∃ l n1 t1 k, b.1.log = l ++ [Event.config n1 t1 k] := by
    rintro a b hs ⟨l, n1, t1, k, hl⟩
    obtain ⟨l', hl'⟩ := hs.log
    exact ⟨l' ++ l, n1, t1, k, by rw [hl', hl, List.append_assoc]⟩
  induction h with
  | create => exact ⟨[], _, _, _, rfl⟩
  | op o h0 h ih => exact this (step_tops h h0.busy).2 ih
  | rx m r h0 h ih => exact this (handleRx_tops h h0.busy).2 ih


/-! ### Regular intervals -/

theorem timersOf_fixed {v : Nat} : ∀ {l : List Event} {n1 t k}, (∀ a b c, Event.config a b c ∈ l ++ [.config n1 t k] → b = v) →
    (timersOf (l ++ [.config n1 t k])).1 = v
  | [], n1, t, k, h => h n1 t k (.head _)
  | e :: l, n1, t, k, h => by
    have ih := timersOf_fixed (l := l) fun a b c hm => h a b c (.tail _ hm)
    cases e
    case config a b c => exact h a b c (.head _)
    all_goals exact ih

theorem sentTimes_cons (id) (e : Event) (l) : sentTimes id (e :: l) = (e.sentAt id).toList ++ sentTimes id l := by
  unfold sentTimes
  rw [List.filterMap_cons]
  cases e.sentAt id <;> rfl

theorem sentTimes_le (id) (l : List Event) : (sentTimes id l).length ≤ (transmissions id l).length := by
  induction l with
  | nil => exact Nat.le_refl _
  | cons e l ih =>
    rw [sentTimes_cons, transmissions_cons, List.length_append, List.length_append]
    have : (e.sentAt id).toList.length ≤ (transmissions id [e]).length := by
      cases e
      case send why i r o ok t =>
        cases why <;> cases ok <;> simp [Event.sentAt, transmissions] <;> split <;> simp_all
      all_goals simp [Event.sentAt]
    omega

theorem sentTimes_all (id) (l : List Event) (hf : ∀ why r o t, Event.send why id r o false t ∉ l) :
    (sentTimes id l).length = (transmissions id l).length := by
  induction l with
  | nil => rfl
  | cons e l ih =>
    rw [sentTimes_cons, transmissions_cons, List.length_append, List.length_append,
      ih fun w r o t hm => hf w r o t (.tail _ hm)]
    have : (e.sentAt id).toList.length = (transmissions id [e]).length := by
      cases e
      case send why i r o ok t =>
        have hx : ok = false → i ≠ id := by
          rintro rfl rfl
          exact hf why r o t (.head _)
        cases why <;> cases ok <;> simp [Event.sentAt, transmissions] <;> by_cases hi : i = id <;> simp_all
      all_goals simp [Event.sentAt, transmissions]
    omega

/-- Transmissions of a message at a fixed T1 are regular, if they are on time. -/
theorem sentTimes_regular {id v : Nat} {n1 t k} : ∀ {l : List Event} {s}, Life id (l ++ [.config n1 t k]) s →
    AllTimely True (l ++ [.config n1 t k]) → (∀ a b c, Event.config a b c ∈ l ++ [.config n1 t k] → b = v) →
    (∃ t0, sentTimes id (l ++ [.config n1 t k]) =
      (List.range (sentTimes id (l ++ [.config n1 t k])).length).reverse.map fun i => t0 + i * v) ∧
    ∀ t' v' k', lastSent id (l ++ [.config n1 t k]) = some (t', v', k') →
      v' = v ∧ ∃ rest, sentTimes id (l ++ [.config n1 t k]) = t' :: rest
  | [], s, _, _, _ => ⟨⟨0, rfl⟩, by simp [lastSent, Event.sentAt]⟩
  | e :: l, s, hl, ht, hc => by
    rw [List.cons_append] at hl ht hc ⊢
    obtain ⟨s0, h0, hn⟩ := hl.uncons
    have hc' : ∀ a b c, Event.config a b c ∈ l ++ [.config n1 t k] → b = v := fun a b c hm => hc a b c (.tail _ hm)
    obtain ⟨⟨t0, ih1⟩, ih2⟩ := sentTimes_regular h0 ht.2 hc'
    have hv := timersOf_fixed hc'
    rw [sentTimes_cons]
    cases hs : e.sentAt id with
    | none =>
      refine ⟨⟨t0, ih1⟩, fun t' v' k' h => ?_⟩
      rw [lastSent, hs] at h
      exact ih2 t' v' k' h
    | some te =>
      refine ⟨?_, ?_⟩
      · have hcase : sentTimes id (l ++ [.config n1 t k]) = [] ∨
            ∃ t1 v1 k1, lastSent id (l ++ [.config n1 t k]) = some (t1, v1, k1) ∧ t1 + v1 = te := by
          have ht1 := ht.1
          unfold Event.sentAt at hs
          split at hs
          · rename_i i r o t2
            left
            have hi : i = id := by
              by_cases h : i = id
              · exact h
              · rw [if_neg h] at hs; cases hs
            subst hi
            cases hn
            case other ha => exact absurd rfl ha
            case send n1' t1' m hm =>
              have := h0.exact rfl rfl
              simp only [Stage.room] at this
              have h2 := sentTimes_le i (l ++ [.config n1 t k])
              exact List.length_eq_zero_iff.mp (by omega)
          · rename_i i r o t2
            right
            have hi : i = id := by
              by_cases h : i = id
              · exact h
              · rw [if_neg h] at hs; cases hs
            subst hi
            rw [if_pos rfl] at hs
            cases hs
            obtain ⟨t1, v1, k1, h1, h2⟩ := ht1
            exact ⟨t1, v1, k1, h1, h2.2 trivial⟩
          · cases hs
        rcases hcase with he | ⟨t1, v1, k1, h1, h2⟩
        · exact ⟨te, by simp [he]⟩
        · obtain ⟨rfl, rest, h3⟩ := ih2 t1 v1 k1 h1
          refine ⟨t0, ?_⟩
          have hlen : ((some te).toList ++ sentTimes id (l ++ [Event.config n1 t k])).length =
              (sentTimes id (l ++ [Event.config n1 t k])).length + 1 := by simp
          rw [hlen, List.range_succ, List.reverse_append, List.map_append, ← ih1]
          congr 1
          have h4 : (sentTimes id (l ++ [Event.config n1 t k])).length = rest.length + 1 := by rw [h3]; rfl
          have h5 := ih1
          rw [h4, List.range_succ, List.reverse_append, h3] at h5
          simp only [List.reverse_cons, List.reverse_nil, List.nil_append, List.map_cons, List.cons_append,
            List.cons.injEq] at h5
          simp only [Option.toList_some, List.reverse_cons, List.reverse_nil, List.nil_append, List.map_cons, List.map_nil]
          rw [h4, Nat.add_mul, ← h2, h5.1]
          simp [Nat.add_assoc]
      · intro t' v' k' h
        rw [lastSent, hs] at h
        simp only [Option.some.injEq, Prod.mk.injEq] at h
        obtain ⟨rfl, h⟩ := h
        refine ⟨?_, _, rfl⟩
        rw [← hv, h]

theorem Life.split {id} : ∀ {l2 : List Event} {e l1 s}, Life id (l2 ++ e :: l1) s → ∃ s0 s1, Life id l1 s0 ∧ Next id s0 e s1
  | [], e, l1, s, h => by
    obtain ⟨s0, h0, hn⟩ := h.uncons
    exact ⟨s0, s, h0, hn⟩
  | x :: l2, e, l1, s, h => by
    obtain ⟨s0, h0, _⟩ := h.uncons
    exact Life.split h0

/-- Before osmo_pfcp_endpoint_tx() returns. -/
def Stage.early : Stage → Bool
  | .unseen | .passed .. | .refused .. | .sent .. | .reported .. => true
  | _ => false

theorem Life.early {id log s} (h : Life id log s) : (s.early = true → Event.returned id none ∉ log) ∧
    (∀ n1 t1 m, s = .stuck n1 t1 m → ∃ r o t, Event.send .retrans id r o false t ∈ log) := by
  induction h with
  | nil => exact ⟨fun _ h => (by cases h), fun _ _ _ h => (by cases h)⟩
  | @cons l s e s' hl hn ih =>
    cases hn
    case other ha =>
      refine ⟨fun hs hm => ?_, fun n1 t1 m hs => ?_⟩
      · rcases List.mem_cons.mp hm with rfl | hm
        · exact ha rfl
        · exact ih.1 hs hm
      · obtain ⟨r, o, t, hm⟩ := ih.2 _ _ _ hs
        exact ⟨r, o, t, .tail _ hm⟩
    case retransFail => exact ⟨fun h => (by cases h), fun _ _ _ _ => ⟨_, _, _, .head _⟩⟩
    all_goals
      refine ⟨fun h => ?_, fun _ _ _ h => (by cases h)⟩
      first
      | cases h; done
      | simp only [List.mem_cons, not_or, reduceCtorEq, not_false_eq_true, true_and]
        exact ih.1 rfl

namespace Props

/-! ### C55: timing -/

/-- C55, apart from N1 = 0: no retransmission, and no report of failure of a request that was sent
(osmo_pfcp_endpoint_tx() returned success), happens before T1, as it was configured at the last transmission, has
passed since the last transmission.  For N1 = 0 the report of failure does not wait: see `C55_no_wait`. -/
theorem C55_not_before_partial {ep : Ep} (h : Reached ep) {id l2 l1 e} (hl : ep.log = l2 ++ e :: l1) :
    (∀ r o ok t, e = .send .retrans id r o ok t → ∃ t0 v k, lastSent id l1 = some (t0, v, k) ∧ t0 + v ≤ t) ∧
    (∀ t, e = .respCb id none t → Event.returned id none ∈ l1 →
      ∃ t0 v k, lastSent id l1 = some (t0, v, k) ∧ t0 + v ≤ t) := by
  have ht := h.timeInv.events
  rw [hl] at ht
  have ht := ht.at
  constructor
  · rintro r o ok t rfl
    obtain ⟨t0, v, k, h1, h2⟩ := ht
    exact ⟨t0, v, k, h1, h2.1⟩
  · rintro t rfl hr
    obtain ⟨t0, v, k, h1, h2⟩ := ht hr
    exact ⟨t0, v, k, h1, h2.1⟩

/-- C55: with N1 = 0, failure is reported at the time of the transmission, although T1 is not zero. -/
theorem C55_no_wait :
    ∃ ep, exec exSend (Ep.create { nodeId := .v4 (.inet 0x7f000002 0) } 0 100 1000 0 0) = .ok ep ∧
      lastSent 0 ep.log = some (0, 100, 1000) ∧ Event.respCb 0 none 0 ∈ ep.log ∧ Event.returned 0 none ∈ ep.log :=
  ⟨_, rfl, rfl, .tail _ (.head _), .head _⟩

/-- C55: if timers are handled on time, retransmissions and reports of failure happen exactly T1 after the last
transmission. -/
theorem C55_on_time {ep : Ep} (h : Punctual ep) {id l2 l1 e} (hl : ep.log = l2 ++ e :: l1) :
    (∀ r o ok t, e = .send .retrans id r o ok t → ∃ t0 v k, lastSent id l1 = some (t0, v, k) ∧ t = t0 + v) ∧
    (∀ t, e = .respCb id none t → Event.returned id none ∈ l1 →
      ∃ t0 v k, lastSent id l1 = some (t0, v, k) ∧ t = t0 + v) := by
  have ht := h.timeInv.events
  rw [hl] at ht
  have ht := ht.at
  constructor
  · rintro r o ok t rfl
    obtain ⟨t0, v, k, h1, h2⟩ := ht
    exact ⟨t0, v, k, h1, (h2.2 trivial).symm⟩
  · rintro t rfl hr
    obtain ⟨t0, v, k, h1, h2⟩ := ht hr
    exact ⟨t0, v, k, h1, (h2.2 trivial).symm⟩

/-- C55: if timers are handled on time, T1 is always `v`, and sendto() does not fail for it, then a request that was
first sent at time `t0` and is reported as failed was sent at `t0`, `t0 + v`, ..., `t0 + n1 * v`, and is reported
at `t0 + (n1 + 1) * v`. -/
theorem C55_failure_time {ep : Ep} (h : Punctual ep) {id n1 t1 m v t l2 l1} (hp : Event.passed id n1 t1 m ∈ ep.log)
    (hv : ∀ a b c, Event.config a b c ∈ ep.log → b = v) (hl : ep.log = l2 ++ .respCb id none t :: l1)
    (hr : Event.returned id none ∈ l1) (hs : ∀ why r o t', Event.send why id r o false t' ∉ l1) :
    ∃ t0, sentTimes id l1 = (List.range (n1 + 1)).reverse.map (fun i => t0 + i * v) ∧ t = t0 + (n1 + 1) * v := by
  obtain ⟨_, hon⟩ := C55_on_time h (id := id) hl
  obtain ⟨t', v', k', hlast, rfl⟩ := hon t rfl hr
  obtain ⟨lc, a, b, c, hlc⟩ := h.reached.begins
  have hti := h.timeInv.events
  obtain ⟨s, hlife, htally, _⟩ := h.reached.stage id
  have hi := (htally.info _ _ _).mp hp
  -- the log before ends with the configuration, too
  have hl1 : ∃ l, l1 = l ++ [.config a b c] := by
    have hne : l1 ≠ [] := by rintro rfl; cases hr
    refine ⟨l1.dropLast, ?_⟩
    have h1 : l1.getLast hne = .config a b c := by
      have : (l2 ++ .respCb id none (t' + v') :: l1).getLast? = (lc ++ [Event.config a b c]).getLast? := by rw [← hl, ← hlc]
      simp only [List.getLast?_append, List.getLast?_singleton, Option.some_or] at this
      rw [List.getLast?_cons, List.getLast?_eq_some_getLast hne] at this
      simpa using this
    rw [← h1]
    exact (List.dropLast_concat_getLast hne).symm
  obtain ⟨l, rfl⟩ := hl1
  have hti1 : AllTimely True (l ++ [.config a b c]) := by
    rw [hl] at hti
    clear hlast hon hlc hl hlife htally hi hp
    induction l2 with
    | nil => exact hti.2
    | cons x l2 ih => exact ih hti.2
  -- the stage before the report
  rw [hl] at hlife
  obtain ⟨s0, s1, h0, hn⟩ := hlife.split
  have hinfo : ∀ x, s0.info = some x → x = (n1, t1, m) := by
    rintro ⟨a1, a2, a3⟩ hx
    have hm : Event.passed id a1 a2 a3 ∈ ep.log := by
      rw [hl]
      exact List.mem_append_right _ (.tail _ ((h0.tally.info _ _ _).mpr hx))
    rw [(htally.info _ _ _).mp hm] at hi
    cases hi; rfl
  have hlen : (transmissions id (l ++ [.config a b c])).length = 1 + n1 := by
    have he := h0.early
    cases hn
    case other ha => exact absurd rfl ha
    case reportNotSent => exact absurd hr (he.1 rfl)
    case reportRefused => exact absurd hr (he.1 rfl)
    case reportSent => exact absurd hr (he.1 rfl)
    case giveUp n1' t1' m' o' _ =>
      have h1 := h0.exact rfl rfl
      have := hinfo _ rfl
      cases this
      exact h1
    case giveUpStuck =>
      obtain ⟨r, o, t2, hm⟩ := he.2 _ _ _ rfl
      exact absurd hm (hs _ _ _ _)
  have hv1 : ∀ x y z, Event.config x y z ∈ l ++ [.config a b c] → y = v := fun x y z hm =>
    hv x y z (by rw [hl]; exact List.mem_append_right _ (.tail _ hm))
  obtain ⟨⟨t0, hreg⟩, hlst⟩ := sentTimes_regular h0 hti1 hv1
  obtain ⟨rfl, rest, hhead⟩ := hlst _ _ _ hlast
  rw [sentTimes_all _ _ hs, hlen, Nat.add_comm] at hreg
  refine ⟨t0, hreg, ?_⟩
  rw [hhead, List.range_succ, List.reverse_append] at hreg
  simp only [List.reverse_cons, List.reverse_nil, List.nil_append, List.map_cons, List.cons_append, List.cons.injEq] at hreg
  rw [hreg.1, Nat.add_mul]
  omega

/-- No timer expires earlier than `ms` from now. -/
def quietFor (ep : Ep) (ms : Nat) : Bool := (ep.reqs ++ ep.resps).all fun e => e.timer.all fun d => decide (ep.now + ms ≤ d)

/-- Time only passes as long as no timer has expired. -/
def onTime : List Op → Ep → Bool
  | [], _ => true
  | .advance ms :: ops, ep => quietFor ep ms && onTime ops { ep with now := ep.now + ms }
  | op :: ops, ep =>
    match op.step ep with
    | .ok ep' => onTime ops ep'
    | _ => true

theorem Punctual.exec {ops : List Op} {ep ep' : Ep} (h0 : Punctual ep) (ho : onTime ops ep = true)
    (h : Verif.exec ops ep = .ok ep') : Punctual ep' := by
  induction ops generalizing ep with
  | nil => cases h; exact h0
  | cons op ops ih =>
    obtain ⟨ep1, h1, h⟩ := Res.bind_eq_ok h
    by_cases ha : ∃ ms, op = .advance ms
    · obtain ⟨ms, rfl⟩ := ha
      cases h1
      simp only [onTime, Bool.and_eq_true] at ho
      refine ih (.advance ms h0 fun e he d hd => ?_) ho.2 h
      have := List.all_eq_true.mp ho.1 e he
      rw [hd] at this
      simpa using this
    · refine ih (.op op h0 (fun ms hm => ha ⟨ms, hm⟩) h1) ?_ h
      unfold onTime at ho
      split at ho
      · rename_i hx; cases hx
      · rename_i hx; cases hx; exact absurd ⟨_, rfl⟩ ha
      · rename_i hx
        cases hx
        rw [h1] at ho
        exact ho

/-- The request of PropsEndpoint.lean is sent at 0, 100 and 200 ms, and reported as failed at 300 ms. -/
example : ∃ ep m, exec (exSend ++ exTimer ++ exTimer ++ exTimer) exEp = .ok ep ∧ Punctual ep ∧
    ep.log = [.freed 0] ++ .respCb 0 none 300 ::
      [.send .retrans 0 exRemote exOctets true 200, .send .retrans 0 exRemote exOctets true 100, .returned 0 none,
       .send .tx 0 exRemote exOctets true 0, .passed 0 2 100 m, .config 2 100 1000] :=
  ⟨_, _, rfl, Punctual.exec (ops := exSend ++ exTimer ++ exTimer ++ exTimer) (ep := exEp) (.create ..) rfl rfl, rfl⟩

/-- Nothing else than C55_failure_time says. -/
example {ep : Ep} {m} (h : Punctual ep) (hl : ep.log = [.freed 0] ++ .respCb 0 none 300 ::
      [.send .retrans 0 exRemote exOctets true 200, .send .retrans 0 exRemote exOctets true 100, .returned 0 none,
       .send .tx 0 exRemote exOctets true 0, .passed 0 2 100 m, .config 2 100 1000]) :
    ∃ t0, [200, 100, 0] = (List.range (2 + 1)).reverse.map (fun i => t0 + i * 100) ∧ 300 = t0 + (2 + 1) * 100 :=
  C55_failure_time (n1 := 2) (t1 := 100) (m := m) h (by simp [hl]) (by simp [hl]; omega) hl (by simp) (by simp)

/-- C55: a response is kept for KEEP_RESP, as it was configured when it was sent, unless the endpoint is closed. -/
theorem C55_response_kept {ep : Ep} (h : Reached ep) {id n1 t1 m} (hp : Event.passed id n1 t1 m ∈ ep.log)
    (hr : m.isResponse = true) (hn : n1 ≠ 0) (ht1 : t1 ≠ 0) {t0 v k} (hs : lastSent id ep.log = some (t0, v, k))
    (hd : drops id ep.log = 0) (hnow : ep.now < t0 + k) : ep.keeps id := by
  have hti := h.timeInv
  have hd : Event.dropped id ∉ ep.log := fun hm => by
    have : 0 < drops id ep.log := List.countP_pos_iff.mpr ⟨_, hm, by simp⟩
    omega
  by_cases hf : Event.freed id ∈ ep.log
  · have := hti.done id n1 t1 m hp hr hf hd t0 v k hs
    dsimp only at this
    omega
  · rcases C58_exactly_once_partial h hp hn ht1 with ⟨hq | hq, _⟩ | ⟨_, hq⟩
    · obtain ⟨e, he, rfl⟩ := hq
      rw [h.inv.req_info he hp] at hr
      cases hr
    · exact hq
    · exfalso
      have : 0 < frees id ep.log := by omega
      obtain ⟨x, hx, hxx⟩ := List.countP_pos_iff.mp this
      split at hxx
      · rename_i i
        simp only [decide_eq_true_eq] at hxx
        subst hxx
        exact hf hx
      · cases hxx

/-- C55: a response is kept no longer than KEEP_RESP: its timer is due then (so that no time passes while it is kept
longer, if timers are handled on time), and when the timer is handled the response is removed. -/
theorem C55_response_released {ep : Ep} (h : Reached ep) {id} (hk : ep.keeps id) :
    ∃ t0 v k, lastSent id ep.log = some (t0, v, k) ∧
      (Punctual ep → ep.now ≤ t0 + k) ∧
      (ep.now < t0 + k → ep.respTimer id = .ok ep) ∧
      (t0 + k ≤ ep.now → ∃ ep', ep.respTimer id = .ok ep' ∧ ¬ ep'.keeps id ∧ frees id ep'.log = 1 ∧
        ∀ i, i ≠ id → (ep'.keeps i ↔ ep.keeps i)) := by
  obtain ⟨e, he⟩ := keeps_iff.mp hk
  obtain ⟨hmem, rfl⟩ := look_eq_some he
  obtain ⟨t0, v, k, h1, h2⟩ := h.timeInv.resps e hmem
  have htm := ((C53_queues h).2 e hmem).2
  obtain ⟨d, hd⟩ := Option.isSome_iff_exists.mp htm
  obtain ⟨rfl, _⟩ := h2 d hd
  refine ⟨t0, v, k, h1, ?_, ?_, ?_⟩
  · intro hpu
    obtain ⟨t0', v', k', h1', h2'⟩ := hpu.timeInv.resps e hmem
    dsimp only at h1 h1'
    rw [h1] at h1'
    simp only [Option.some.injEq, Prod.mk.injEq] at h1'
    obtain ⟨rfl, rfl, rfl⟩ := h1'
    exact (h2' _ hd).2 trivial
  · intro hlt
    unfold Ep.respTimer
    have he' : ep.resps.find? (fun x => x.id = e.id) = some e := he
    rw [he']
    have : ¬ (t0 + k ≤ ep.now) := by omega
    simp [QEntry.expired, hd, this]
  · intro hle
    have hrq : e.m.isResponse = true := ((C53_queues h).2 e hmem).1
    have he' : ep.resps.find? (fun x => x.id = e.id) = some e := he
    obtain ⟨ep1, hq⟩ := h.both.use.queueDel_total e.id
    refine ⟨ep1, by unfold Ep.respTimer; rw [he']; simp [QEntry.expired, hd, hle, hrq]; exact hq, ?_⟩
    obtain ⟨ps, t26, us, rfl⟩ := queueDel_ok hq
    refine ⟨?_, ?_, ?_⟩
    · rintro ⟨x, hx, hid⟩
      simp at hx
      exact hx.2 hid
    · have : frees e.id ep.log = 0 := by
        obtain ⟨s, hl, ht, hf⟩ := h.stage e.id
        rw [ht.frees]
        rw [he] at hf
        cases s <;> simp [Fits] at hf <;> rfl
      show frees e.id (.freed e.id :: ep.log) = 1
      rw [frees_cons, this]
      simp [frees]
    · intro i hi
      simp only [Ep.keeps, List.mem_filter]
      constructor
      · rintro ⟨x, hx, rfl⟩; exact ⟨x, hx.1, rfl⟩
      · rintro ⟨x, hx, rfl⟩; exact ⟨x, ⟨hx, by simpa using hi⟩, rfl⟩

/-- A response is sent at time 0 and kept for 1 s: it is there at 999 ms, and gone after its timer at 1 s. -/
example : (∃ ep, exec [.app (.bind true (.tx exAnswer true .done .done)), .advance 999, .respTimer 0] exEp = .ok ep ∧
      ep.keeps 0 ∧ lastSent 0 ep.log = some (0, 100, 1000) ∧ ep.now = 999 ∧ drops 0 ep.log = 0) ∧
    ∃ ep, exec [.app (.bind true (.tx exAnswer true .done .done)), .advance 1000, .respTimer 0] exEp = .ok ep ∧
      ¬ ep.keeps 0 := by
  refine ⟨⟨_, rfl, ⟨_, .head _, rfl⟩, rfl, rfl, rfl⟩, _, rfl, ?_⟩
  rintro ⟨e, he, _⟩
  cases he

end Props

end Verif
