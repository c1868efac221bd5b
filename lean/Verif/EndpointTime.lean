/-
When things happen at the endpoint (for C55).
-/
import Verif.EndpointLog

namespace Verif

theorem timersOf_append {l log : List Event} (h : ∀ e ∈ l, e.timers = none) : timersOf (l ++ log) = timersOf log := by
  induction l with
  | nil => rfl
  | cons e l ih =>
    rw [List.cons_append, timersOf, h e (.head _)]
    exact ih fun x hx => h x (.tail _ hx)

theorem lastSent_append {id} {l log : List Event} (h : ∀ e ∈ l, e.sentAt id = none) :
    lastSent id (l ++ log) = lastSent id log := by
  induction l with
  | nil => rfl
  | cons e l ih =>
    rw [List.cons_append, lastSent, h e (.head _)]
    exact ih fun x hx => h x (.tail _ hx)

theorem sentAt_not_about {id} {e : Event} (h : ¬ About id e) : e.sentAt id = none := by
  unfold Event.sentAt
  split
  · exact if_neg h
  · exact if_neg h
  · rfl

/-- `b` is at least `a`, and equal to it if things happen on time. -/
def Due (P : Prop) (a b : Nat) : Prop := a ≤ b ∧ (P → a = b)

/-- The event happens when it is due, according to the log before it. -/
def Timely (P : Prop) (log : List Event) : Event → Prop
  | .send .retrans id _ _ _ t => ∃ t0 v k, lastSent id log = some (t0, v, k) ∧ Due P (t0 + v) t
  | .respCb id none t => Event.returned id none ∈ log → ∃ t0 v k, lastSent id log = some (t0, v, k) ∧ Due P (t0 + v) t
  | _ => True

/-- All events are timely. -/
def AllTimely (P : Prop) : List Event → Prop
  | [] => True
  | e :: l => Timely P l e ∧ AllTimely P l

theorem AllTimely.at {P : Prop} : ∀ {l2 : List Event} {e l1}, AllTimely P (l2 ++ e :: l1) → Timely P l1 e
  | [], _, _, h => h.1
  | _ :: l2, _, _, h => AllTimely.at (l2 := l2) h.2

theorem AllTimely.append {P : Prop} : ∀ {l log : List Event}, AllTimely P log → (∀ e ∈ l, ∀ log, Timely P log e) → AllTimely P (l ++ log)
  | [], _, h, _ => h
  | _ :: l, _, h, hl => ⟨hl _ (.head _) _, AllTimely.append (l := l) h fun e he => hl e (.tail _ he)⟩

/-- What the state says about time. -/
structure TimeInv (P : Prop) (x : Ep × Ph) : Prop where
  inv : Inv x
  timers : timersOf x.1.log = (x.1.t1, x.1.keepResp)
  reqs : ∀ e ∈ x.1.reqs, ∃ t v k, lastSent e.id x.1.log = some (t, v, k) ∧
    ∀ d, e.timer = some d → d = t + v ∧ (P → x.1.now ≤ d)
  resps : ∀ e ∈ x.1.resps, ∃ t v k, lastSent e.id x.1.log = some (t, v, k) ∧
    ∀ d, e.timer = some d → d = t + k ∧ (P → x.1.now ≤ d)
  events : AllTimely P x.1.log
  done : ∀ id n1 t1 m, Event.passed id n1 t1 m ∈ x.1.log → m.isResponse = true → Event.freed id ∈ x.1.log →
    Event.dropped id ∉ x.1.log → ∀ t v k, lastSent id x.1.log = some (t, v, k) → t + k ≤ x.1.now

theorem Life.unseen_about {id log} (h : Life id log .unseen) : ∀ e ∈ log, ¬ About id e := by
  generalize hs : Stage.unseen = s at h
  induction h with
  | nil => intro e he; cases he
  | cons hl hn ih =>
    subst hs
    cases hn with
    | other _ _ ha =>
      intro e he
      rcases List.mem_cons.mp he with rfl | he
      · exact ha
      · exact ih rfl e he

/-- An entry that is an earlier one, with its timer or a stopped one. -/
def OldEntry (q : List QEntry) (l : List Event) (e' : QEntry) : Prop :=
  ∃ e ∈ q, e.id = e'.id ∧ (e'.timer = e.timer ∨ e'.timer = none) ∧ ∀ x ∈ l, x.sentAt e.id = none

theorem TimeInv.more {P : Prop} {a b : Ep × Ph} (h : TimeInv P a) (hs : Micro a b) (l : List Event) (hl : b.1.log = l ++ a.1.log)
    (htm : ∀ e ∈ l, e.timers = none) (ht : b.1.t1 = a.1.t1 ∧ b.1.keepResp = a.1.keepResp) (hnow : b.1.now = a.1.now)
    (hreq : ∀ e' ∈ b.1.reqs, OldEntry a.1.reqs l e' ∨
      ∃ t v k, lastSent e'.id b.1.log = some (t, v, k) ∧ ∀ d, e'.timer = some d → d = t + v ∧ (P → b.1.now ≤ d))
    (hresp : ∀ e' ∈ b.1.resps, OldEntry a.1.resps l e' ∨
      ∃ t v k, lastSent e'.id b.1.log = some (t, v, k) ∧ ∀ d, e'.timer = some d → d = t + k ∧ (P → b.1.now ≤ d))
    (hev : AllTimely P a.1.log → AllTimely P b.1.log)
    (hnew : ∀ id, (∃ x ∈ l, About id x) → (∀ e ∈ l, e.sentAt id = none ∧ ∀ n1 t1 m, e ≠ .passed id n1 t1 m) ∨ Event.freed id ∉ a.1.log)
    (hdone : ∀ id, Event.freed id ∈ l → ∀ n1 t1 m, Event.passed id n1 t1 m ∈ b.1.log → m.isResponse = true →
      Event.dropped id ∉ b.1.log → ∀ t v k, lastSent id b.1.log = some (t, v, k) → t + k ≤ b.1.now) : TimeInv P b := by
  refine ⟨h.inv.step hs, ?_, ?_, ?_, hev h.events, ?_⟩
  · rw [hl, timersOf_append htm, ht.1, ht.2]; exact h.timers
  · intro e' he'
    rcases hreq e' he' with ⟨e, he, hid, htimer, hno⟩ | hx
    · obtain ⟨t, v, k, h1, h2⟩ := h.reqs e he
      refine ⟨t, v, k, by rw [hl, ← hid, lastSent_append hno]; exact h1, ?_⟩
      intro d hd
      rcases htimer with h3 | h3
      · rw [hnow]; exact h2 d (h3 ▸ hd)
      · rw [h3] at hd; cases hd
    · exact hx
  · intro e' he'
    rcases hresp e' he' with ⟨e, he, hid, htimer, hno⟩ | hx
    · obtain ⟨t, v, k, h1, h2⟩ := h.resps e he
      refine ⟨t, v, k, by rw [hl, ← hid, lastSent_append hno]; exact h1, ?_⟩
      intro d hd
      rcases htimer with h3 | h3
      · rw [hnow]; exact h2 d (h3 ▸ hd)
      · rw [h3] at hd; cases hd
    · exact hx
  · intro id n1 t1 m hp hr hf hd t v k hls
    by_cases hfl : Event.freed id ∈ l
    · exact hdone id hfl n1 t1 m hp hr hd t v k hls
    · have hfa : Event.freed id ∈ a.1.log := by
        rw [hl] at hf
        exact (List.mem_append.mp hf).resolve_left hfl
      have hno : ∀ e ∈ l, e.sentAt id = none ∧ ∀ n1 t1 m, e ≠ .passed id n1 t1 m := by
        by_cases hab : ∃ x ∈ l, About id x
        · exact (hnew id hab).resolve_right fun h => h hfa
        · intro e he
          have hne : ¬ About id e := fun h => hab ⟨e, he, h⟩
          refine ⟨sentAt_not_about hne, ?_⟩
          rintro n1 t1 m rfl
          exact hne rfl
      rw [hnow]
      refine h.done id n1 t1 m ?_ hr hfa ?_ t v k ?_
      · rw [hl] at hp
        refine (List.mem_append.mp hp).resolve_left fun hp => ?_
        exact (hno _ hp).2 _ _ _ rfl
      · exact fun hd' => hd (by rw [hl]; exact List.mem_append_right _ hd')
      · rw [hl, lastSent_append fun e he => (hno e he).1] at hls
        exact hls

/-- Steps that leave the queues and the timers alone. -/
theorem TimeInv.plain {P : Prop} {a b : Ep × Ph} (h : TimeInv P a) (hs : Micro a b) (l : List Event) (hl : b.1.log = l ++ a.1.log)
    (htm : ∀ e ∈ l, e.timers = none) (ht : b.1.t1 = a.1.t1 ∧ b.1.keepResp = a.1.keepResp) (hnow : b.1.now = a.1.now)
    (hq : b.1.reqs = a.1.reqs ∧ b.1.resps = a.1.resps)
    (hev : AllTimely P a.1.log → AllTimely P b.1.log)
    (hno : ∀ id, (∀ e ∈ l, e.sentAt id = none ∧ ∀ n1 t1 m, e ≠ .passed id n1 t1 m) ∧ Event.freed id ∉ l ∨
      a.1.nextId ≤ id ∧ (Event.freed id ∈ l → lastSent id b.1.log = none)) : TimeInv P b := by
  have hfresh : ∀ {id}, a.1.nextId ≤ id → Life id a.1.log .unseen ∧ look a.1.reqs id = none ∧ look a.1.resps id = none := by
    intro id hle
    have := Inv.fresh (ep := a.1) (ph := a.2) h.inv hle
    exact ⟨this.1, this.2.1, this.2.2.1⟩
  refine h.more hs l hl htm ht hnow ?_ ?_ hev ?_ ?_
  · intro e' he'
    rw [hq.1] at he'
    refine .inl ⟨e', he', rfl, .inl rfl, fun x hx => ?_⟩
    rcases hno e'.id with hn | hn
    · exact (hn.1 x hx).1
    · exact absurd (List.mem_map_of_mem he') (look_eq_none (hfresh hn.1).2.1)
  · intro e' he'
    rw [hq.2] at he'
    refine .inl ⟨e', he', rfl, .inl rfl, fun x hx => ?_⟩
    rcases hno e'.id with hn | hn
    · exact (hn.1 x hx).1
    · exact absurd (List.mem_map_of_mem he') (look_eq_none (hfresh hn.1).2.2)
  · intro id _
    rcases hno id with hn | hn
    · exact .inl hn.1
    · exact .inr fun hf => (hfresh hn.1).1.unseen_about _ hf rfl
  · intro id hf n1 t1 m _ _ _ t v k hls
    rcases hno id with hn | hn
    · exact absurd hf hn.2
    · rw [hn.2 hf] at hls; cases hls

theorem mem_setEntry {q : List QEntry} {e x : QEntry} (h : x ∈ setEntry q e) : x = e ∨ x ∈ q ∧ x.id ≠ e.id := by
  unfold setEntry at h
  obtain ⟨y, hy, rfl⟩ := List.mem_map.mp h
  by_cases hid : y.id = e.id
  · rw [if_pos hid]; exact .inl rfl
  · rw [if_neg hid]; exact .inr ⟨hy, hid⟩

/-- A message in the request queue is a request. -/
theorem Inv.req_info {ep : Ep} {ph : Ph} (h : Inv (ep, ph)) {e} (he : e ∈ ep.reqs) {n1 t1 m}
    (hp : Event.passed e.id n1 t1 m ∈ ep.log) : m.isResponse = false := by
  obtain ⟨n1', t1', m', o, s, hl, _, hr, _, _, _, _, hst⟩ := h.requestAny (look_of_mem h.nodupReqs he)
  have hi := (hl.tally.info _ _ _).mp hp
  rcases hst with ⟨rfl, _⟩ | ⟨k, rfl, _⟩ | ⟨k, rfl, _⟩ | ⟨k, rfl, _⟩ | ⟨rfl, _⟩ <;>
  · simp only [Stage.info, Option.some.injEq, Prod.mk.injEq] at hi
    rw [← hi.2.2]; exact hr

theorem Inv.req_not_freed {ep : Ep} {ph : Ph} (h : Inv (ep, ph)) {e} (he : e ∈ ep.reqs) : Event.freed e.id ∉ ep.log := by
  obtain ⟨n1', t1', m', o, s, hl, _, hr, _, _, _, _, hst⟩ := h.requestAny (look_of_mem h.nodupReqs he)
  intro hf
  have h1 : frees e.id ep.log ≥ 1 := by
    unfold frees
    exact List.countP_pos_iff.mpr ⟨_, hf, by simp⟩
  rw [hl.tally.frees] at h1
  rcases hst with ⟨rfl, _⟩ | ⟨k, rfl, _⟩ | ⟨k, rfl, _⟩ | ⟨k, rfl, _⟩ | ⟨rfl, _⟩ <;> simp [Stage.frees] at h1

theorem Refused.timers {ep : Ep} {why id m l} (h : Refused ep why id m l) : ∀ e ∈ l, e.timers = none := by
  rcases h with ⟨rfl, _⟩ | ⟨o, _, rfl⟩
  · simp
  · intro e he; rw [List.mem_singleton.mp he]; rfl

theorem Refused.notSent {ep : Ep} {why id m l} (h : Refused ep why id m l) (i) : ∀ e ∈ l, e.sentAt i = none ∧ ∀ n1 t1 m, e ≠ .passed i n1 t1 m := by
  rcases h with ⟨rfl, _⟩ | ⟨o, _, rfl⟩
  · simp
  · intro e he; rw [List.mem_singleton.mp he]
    refine ⟨?_, by simp⟩
    cases why <;> rfl

theorem Refused.notFreed {ep : Ep} {why id m l} (h : Refused ep why id m l) (i) : Event.freed i ∉ l := by
  rcases h with ⟨rfl, _⟩ | ⟨o, _, rfl⟩
  · simp
  · simp

theorem Quiet.timely {P e} (h : Quiet e) (log) : Timely P log e := by cases h <;> trivial
theorem Quiet.notSent {e} (h : Quiet e) (i) : e.sentAt i = none ∧ (∀ n1 t1 m, e ≠ .passed i n1 t1 m) ∧ e ≠ .freed i := by
  cases h <;> simp [Event.sentAt]

theorem TimeInv.step {P : Prop} {a b : Ep × Ph} (h : TimeInv P a) (hs : Micro a b) (hnow : P → b.1.now = a.1.now) : TimeInv P b := by
  have hs0 := hs
  have hfresh : ∀ {id}, a.1.nextId ≤ id → Life id a.1.log .unseen := fun hle => (Inv.fresh (ep := a.1) (ph := a.2) h.inv hle).1
  cases hs
  case txQueued ep ph m o hsock hn ho =>
    have hlog : ((((ep.begun m).enqueue ((ep.begun m).entry ep.nextId { ep.outgoing m with encoded := some o })).logs
          [.returned ep.nextId none, .send .tx ep.nextId (ep.outgoing m).remote o true ep.now,
           .passed ep.nextId ep.n1 ep.t1 (ep.outgoing m)])).log = [.returned ep.nextId none, .send .tx ep.nextId (ep.outgoing m).remote o true ep.now,
           .passed ep.nextId ep.n1 ep.t1 (ep.outgoing m)] ++ ep.log := by
      simp only [Ep.logs, Ep.enqueue]
      split <;> simp only [begun_log]
    have hls : lastSent ep.nextId ([.returned ep.nextId none, .send .tx ep.nextId (ep.outgoing m).remote o true ep.now,
           .passed ep.nextId ep.n1 ep.t1 (ep.outgoing m)] ++ ep.log) = some (ep.now, ep.t1, ep.keepResp) := by
      have := h.timers
      simp only [List.cons_append, List.nil_append, lastSent, Event.sentAt, if_true, timersOf, Event.timers, Option.getD_none]
      dsimp only at this
      rw [this]
    refine h.more hs0 _ hlog (by simp [Event.timers]) ?_ ?_ ?_ ?_ ?_ ?_ ?_
    · simp only [Ep.logs, Ep.enqueue]; split <;> simp
    · simp only [Ep.logs, Ep.enqueue]; split <;> simp
    · intro e' he'
      have hold : e' ∈ ep.reqs → OldEntry ep.reqs [.returned ep.nextId none, .send .tx ep.nextId (ep.outgoing m).remote o true ep.now,
           .passed ep.nextId ep.n1 ep.t1 (ep.outgoing m)] e' := by
        intro he'
        refine ⟨e', he', rfl, .inl rfl, ?_⟩
        have hne : ep.nextId ≠ e'.id := by
          intro hid
          have := (Inv.fresh (ep := ep) (ph := ph) h.inv (Nat.le_refl _)).2.1
          rw [hid] at this
          exact look_eq_none this (List.mem_map_of_mem he')
        simp [Event.sentAt, hne]
      by_cases hr : m.isResponse = true
      · refine .inl (hold ?_)
        simpa [Ep.logs, Ep.enqueue, Ep.entry, hr] using he'
      · simp only [Ep.logs, Ep.enqueue, Ep.entry, outgoing_isResponse, hr] at he'
        simp only [Bool.false_eq_true, if_false, begun_reqs, List.mem_cons] at he'
        rcases he' with rfl | he'
        · refine .inr ⟨_, _, _, by rw [hlog]; exact hls, ?_⟩
          intro d hd
          simp only [begun_now, begun_t1, Option.some.injEq] at hd
          refine ⟨hd.symm, fun _ => ?_⟩
          have : ((((ep.begun m).enqueue ((ep.begun m).entry ep.nextId { ep.outgoing m with encoded := some o })).logs
            [.returned ep.nextId none, .send .tx ep.nextId (ep.outgoing m).remote o true ep.now,
             .passed ep.nextId ep.n1 ep.t1 (ep.outgoing m)])).now = ep.now := by
            simp only [Ep.logs, Ep.enqueue]; split <;> simp
          refine Nat.le_trans (Nat.le_of_eq this) ?_
          omega
        · exact .inl (hold he')
    · intro e' he'
      have hold : e' ∈ ep.resps → OldEntry ep.resps [.returned ep.nextId none, .send .tx ep.nextId (ep.outgoing m).remote o true ep.now,
           .passed ep.nextId ep.n1 ep.t1 (ep.outgoing m)] e' := by
        intro he'
        refine ⟨e', he', rfl, .inl rfl, ?_⟩
        have hne : ep.nextId ≠ e'.id := by
          intro hid
          have := (Inv.fresh (ep := ep) (ph := ph) h.inv (Nat.le_refl _)).2.2.1
          rw [hid] at this
          exact look_eq_none this (List.mem_map_of_mem he')
        simp [Event.sentAt, hne]
      by_cases hr : m.isResponse = true
      · simp only [Ep.logs, Ep.enqueue, Ep.entry, outgoing_isResponse, hr] at he'
        simp only [if_true, begun_resps, List.mem_append, List.mem_cons, List.not_mem_nil, or_false] at he'
        rcases he' with he' | rfl
        · exact .inl (hold he')
        · refine .inr ⟨_, _, _, by rw [hlog]; exact hls, ?_⟩
          intro d hd
          simp only [begun_now, begun_keepResp, Option.some.injEq] at hd
          refine ⟨hd.symm, fun _ => ?_⟩
          have : ((((ep.begun m).enqueue ((ep.begun m).entry ep.nextId { ep.outgoing m with encoded := some o })).logs
            [.returned ep.nextId none, .send .tx ep.nextId (ep.outgoing m).remote o true ep.now,
             .passed ep.nextId ep.n1 ep.t1 (ep.outgoing m)])).now = ep.now := by
            simp only [Ep.logs, Ep.enqueue]; split <;> simp
          refine Nat.le_trans (Nat.le_of_eq this) ?_
          omega
      · refine .inl (hold ?_)
        simpa [Ep.logs, Ep.enqueue, Ep.entry, hr] using he'
    · intro hev
      rw [hlog]
      exact ⟨trivial, trivial, trivial, hev⟩
    · rintro id ⟨x, hx, hab⟩
      refine .inr fun hf => ?_
      have hid : id = ep.nextId := by
        simp only [List.mem_cons, List.not_mem_nil, or_false] at hx
        rcases hx with rfl | rfl | rfl <;> exact hab.symm
      exact (hfresh (Nat.le_of_eq hid.symm)).unseen_about _ hf rfl
    · intro id hf
      simp at hf
  case txLost ep ph m e l _ hl =>
    refine h.plain hs0 _ (by simp only [Ep.logs, begun_log]; rfl) ?_ (by simp [Ep.logs]) (by simp [Ep.logs]) (by simp [Ep.logs]) ?_ ?_
    · intro x hx
      simp only [List.mem_append, List.mem_cons, List.not_mem_nil, or_false] at hx
      rcases hx with ((rfl | rfl) | hx) | rfl
      · rfl
      · rfl
      · exact hl.timers x hx
      · rfl
    · intro hev
      have h2 : AllTimely P (l ++ (.passed ep.nextId ep.n1 ep.t1 (ep.outgoing m) :: ep.log)) := by
        refine AllTimely.append ⟨trivial, hev⟩ ?_
        rcases hl with ⟨rfl, _⟩ | ⟨o, _, rfl⟩
        · intro e he; cases he
        · intro e he log; rw [List.mem_singleton.mp he]; trivial
      simp only [Ep.logs, begun_log, List.cons_append, List.nil_append, List.append_assoc]
      exact ⟨trivial, trivial, h2⟩
    · intro id
      by_cases hid : id = ep.nextId
      · refine .inr ⟨Nat.le_of_eq hid.symm, fun _ => ?_⟩
        simp only [Ep.logs, begun_log]
        rw [lastSent_append]
        · subst hid
          have hz := (hfresh (Nat.le_refl ep.nextId)).unseen_about
          have := lastSent_append (id := ep.nextId) (l := ep.log) (log := []) fun e he => sentAt_not_about (hz e he)
          rw [List.append_nil] at this
          rw [this]; rfl
        · intro x hx
          simp only [List.mem_append, List.mem_cons, List.not_mem_nil, or_false] at hx
          rcases hx with ((rfl | rfl) | hx) | rfl
          · rfl
          · rfl
          · exact (hl.notSent id x hx).1
          · rfl
      · refine .inl ⟨?_, ?_⟩
        · intro x hx
          simp only [List.mem_append, List.mem_cons, List.not_mem_nil, or_false] at hx
          rcases hx with ((rfl | rfl) | hx) | rfl
          · exact ⟨rfl, by simp⟩
          · exact ⟨rfl, by simp⟩
          · exact hl.notSent id x hx
          · exact ⟨rfl, by simp [Ne.symm hid]⟩
        · simp [hid, hl.notFreed id]
  case txLostCb ep ph m l _ _ hl =>
    refine h.plain hs0 _ (by simp only [Ep.logs, begun_log]; rfl) ?_ (by simp [Ep.logs]) (by simp [Ep.logs]) (by simp [Ep.logs]) ?_ ?_
    · intro x hx
      simp only [List.mem_append, List.mem_cons, List.not_mem_nil, or_false] at hx
      rcases hx with (rfl | hx) | rfl
      · rfl
      · exact hl.timers x hx
      · rfl
    · intro hev
      have h2 : AllTimely P (l ++ (.passed ep.nextId ep.n1 ep.t1 (ep.outgoing m) :: ep.log)) := by
        refine AllTimely.append ⟨trivial, hev⟩ ?_
        rcases hl with ⟨rfl, _⟩ | ⟨o, _, rfl⟩
        · intro e he; cases he
        · intro e he log; rw [List.mem_singleton.mp he]; trivial
      simp only [Ep.logs, begun_log, List.cons_append, List.nil_append, List.append_assoc]
      refine ⟨fun hr => ?_, h2⟩
      exfalso
      rcases List.mem_append.mp hr with hr | hr
      · rcases hl with ⟨rfl, _⟩ | ⟨o, _, rfl⟩
        · cases hr
        · cases List.mem_singleton.mp hr
      · rcases List.mem_cons.mp hr with hr | hr
        · cases hr
        · exact (hfresh (Nat.le_refl ep.nextId)).unseen_about _ hr rfl
    · intro id
      by_cases hid : id = ep.nextId
      · refine .inr ⟨Nat.le_of_eq hid.symm, fun hf => ?_⟩
        simp [hl.notFreed id] at hf
      · refine .inl ⟨?_, ?_⟩
        · intro x hx
          simp only [List.mem_append, List.mem_cons, List.not_mem_nil, or_false] at hx
          rcases hx with (rfl | hx) | rfl
          · exact ⟨rfl, by simp⟩
          · exact hl.notSent id x hx
          · exact ⟨rfl, by simp [Ne.symm hid]⟩
        · simp [hl.notFreed id]
  case txUnq ep ph m o _ _ _ _ =>
    refine h.plain hs0 _ (by simp only [Ep.logs, begun_log]; rfl) ?_ (by simp [Ep.logs]) (by simp [Ep.logs]) (by simp [Ep.logs]) ?_ ?_
    · simp [Event.timers]
    · intro hev
      simp only [Ep.logs, begun_log]
      exact ⟨trivial, trivial, trivial, hev⟩
    · intro id
      by_cases hid : id = ep.nextId
      · exact .inr ⟨Nat.le_of_eq hid.symm, fun hf => by simp at hf⟩
      · exact .inl (by simp [Event.sentAt, Ne.symm hid])
  case txUnqCb ep ph m o _ _ _ _ _ =>
    refine h.plain hs0 _ (by simp only [Ep.logs, begun_log]; rfl) ?_ (by simp [Ep.logs]) (by simp [Ep.logs]) (by simp [Ep.logs]) ?_ ?_
    · simp [Event.timers]
    · intro hev
      simp only [Ep.logs, begun_log]
      refine ⟨fun hr => ?_, trivial, trivial, hev⟩
      exfalso
      change _ ∈ _ :: _ :: ep.log at hr
      simp only [List.mem_cons, reduceCtorEq, false_or] at hr
      exact (hfresh (Nat.le_refl ep.nextId)).unseen_about _ hr rfl
    · intro id
      by_cases hid : id = ep.nextId
      · exact .inr ⟨Nat.le_of_eq hid.symm, fun hf => by simp at hf⟩
      · exact .inl (by simp [Event.sentAt, Ne.symm hid])
  case txLostEnd ep a' t id b' e hb =>
    refine h.more hs0 [.returned id (some e), .freed id] rfl (by simp [Event.timers]) ⟨rfl, rfl⟩ rfl ?_ ?_
      (fun h => ⟨trivial, trivial, h⟩) (fun i _ => .inl (by simp [Event.sentAt])) ?_
    · intro x hx; exact .inl ⟨x, hx, rfl, .inl rfl, by simp [Event.sentAt]⟩
    · intro x hx; exact .inl ⟨x, hx, rfl, .inl rfl, by simp [Event.sentAt]⟩
    · intro i hf n1 t1 m hp hr
      exfalso
      simp only [List.mem_cons, reduceCtorEq, Event.freed.injEq, List.not_mem_nil, or_false, false_or] at hf
      subst hf
      have hp' : Event.passed i n1 t1 m ∈ ep.log := by
        simpa [Ep.logs] using hp
      obtain ⟨s, l1, l2, _⟩ := h.inv.life i
      dsimp only at l1 l2
      rw [Ph.txOf_cons, if_pos rfl] at l2
      have hg := l1.tally.good
      have hi := (l1.tally.info _ _ _).mp hp'
      cases s
      case reported =>
        simp only [Stage.info, Option.some.injEq, Prod.mk.injEq] at hi
        obtain ⟨-, -, rfl⟩ := hi
        have := hg.1
        simp [PMsg.wantsCb, hr] at this
      all_goals exfalso; simp [Fits] at l2
  case txUnqEnd => exact h.plain hs0 [_] rfl (by simp [Event.timers]) ⟨rfl, rfl⟩ rfl ⟨rfl, rfl⟩ (fun h => ⟨trivial, h⟩) (fun id => .inl (by simp [Event.sentAt]))
  case number => exact h.plain hs0 [] rfl (by simp) ⟨rfl, rfl⟩ rfl ⟨rfl, rfl⟩ id (fun id => .inl (by simp))
  case heartbeat ep ph r l hl =>
    rcases hl with rfl | ⟨o, ok, _, rfl⟩
    · exact h.plain hs0 [] rfl (by simp) ⟨rfl, rfl⟩ rfl ⟨rfl, rfl⟩ id (fun id => .inl (by simp))
    · exact h.plain hs0 [_] rfl (by simp [Event.timers]) ⟨rfl, rfl⟩ rfl ⟨rfl, rfl⟩ (fun h => ⟨trivial, h⟩) (fun id => .inl (by simp [Event.sentAt]))
  case replied => exact h.plain hs0 [_] rfl (by simp [Event.timers]) ⟨rfl, rfl⟩ rfl ⟨rfl, rfl⟩ (fun h => ⟨trivial, h⟩) (fun id => .inl (by simp [Event.sentAt]))
  case quiet ep ph e hq =>
    refine h.plain hs0 [e] rfl ?_ ⟨rfl, rfl⟩ rfl ⟨rfl, rfl⟩ (fun h => ⟨hq.timely _, h⟩) (fun id => .inl ?_)
    · intro x hx; rw [List.mem_singleton.mp hx]; cases hq <;> rfl
    · obtain ⟨q1, q2, q3⟩ := hq.notSent id
      simpa [q1, Ne.symm q3] using q2
  case invalidate ep ph fi =>
    refine h.more hs0 [] rfl (by simp) ⟨rfl, rfl⟩ rfl ?_ ?_ id (fun i _ => .inl (by simp)) (fun i hf => by simp at hf)
    · intro x hx
      obtain ⟨y, hy, rfl⟩ := List.mem_map.mp hx
      exact .inl ⟨y, hy, rfl, .inl rfl, by simp⟩
    · intro x hx
      obtain ⟨y, hy, rfl⟩ := List.mem_map.mp hx
      exact .inl ⟨y, hy, rfl, .inl rfl, by simp⟩
  case setSeq => exact h.plain hs0 [] rfl (by simp) ⟨rfl, rfl⟩ rfl ⟨rfl, rfl⟩ id (fun id => .inl (by simp))
  case setTimers ep ph n1 t1 kr =>
    refine ⟨h.inv.step hs0, rfl, ?_, ?_, ⟨trivial, h.events⟩, ?_⟩
    · intro e he; exact h.reqs e he
    · intro e he; exact h.resps e he
    · intro id n1' t1' m hp hr hf hd t v k hls
      refine h.done id n1' t1' m (by simpa using hp) hr (by simpa using hf) (by simpa using hd) t v k hls
  case close ep ph hc =>
    have hmem : ∀ x ∈ dropEvents (ep.reqs ++ ep.resps), ∃ e : QEntry, x = .dropped e.id ∨ x = .freed e.id := by
      intro x hx
      simp only [dropEvents, List.mem_reverse, List.mem_flatten, List.mem_map] at hx
      obtain ⟨_, ⟨e, _, rfl⟩, hx⟩ := hx
      simp only [List.mem_cons, List.not_mem_nil, or_false] at hx
      exact ⟨e, hx⟩
    refine h.more hs0 (dropEvents (ep.reqs ++ ep.resps)) rfl ?_ ⟨rfl, rfl⟩ rfl ?_ ?_ ?_ ?_ ?_
    · intro x hx
      obtain ⟨e, rfl | rfl⟩ := hmem x hx <;> rfl
    · intro x hx; cases hx
    · intro x hx; cases hx
    · intro hev
      refine AllTimely.append hev fun x hx log => ?_
      obtain ⟨e, rfl | rfl⟩ := hmem x hx <;> trivial
    · intro i _
      refine .inl fun x hx => ?_
      obtain ⟨e, rfl | rfl⟩ := hmem x hx <;> simp [Event.sentAt]
    · intro i hf n1 t1 m hp hr hd
      exfalso
      apply hd
      refine List.mem_append_left _ ?_
      simp only [List.mem_reverse, List.mem_flatten, List.mem_map, dropEvents] at hf ⊢
      obtain ⟨_, ⟨e, he, rfl⟩, hx⟩ := hf
      simp only [List.mem_cons, List.not_mem_nil, or_false, reduceCtorEq, false_or, Event.freed.injEq] at hx
      exact ⟨_, ⟨e, he, rfl⟩, by rw [hx]; exact .head _⟩
  case peers => exact h.plain hs0 [] rfl (by simp) ⟨rfl, rfl⟩ rfl ⟨rfl, rfl⟩ id (fun id => .inl (by simp))
  case bind => exact h.plain hs0 [] rfl (by simp) ⟨rfl, rfl⟩ rfl ⟨rfl, rfl⟩ id (fun id => .inl (by simp))
  case advance ep ms =>
    refine ⟨h.inv.step hs0, h.timers, ?_, ?_, h.events, ?_⟩
    · intro e he
      obtain ⟨t, v, k, h1, h2⟩ := h.reqs e he
      exact ⟨t, v, k, h1, fun d hd => ⟨(h2 d hd).1, fun hp => by rw [hnow hp]; exact (h2 d hd).2 hp⟩⟩
    · intro e he
      obtain ⟨t, v, k, h1, h2⟩ := h.resps e he
      exact ⟨t, v, k, h1, fun d hd => ⟨(h2 d hd).1, fun hp => by rw [hnow hp]; exact (h2 d hd).2 hp⟩⟩
    · intro id n1' t1' m hp hr hf hd t v k hls
      exact Nat.le_trans (h.done id n1' t1' m hp hr hf hd t v k hls) (Nat.le_add_right ..)
  case retrans ep e o hb hf hx hr hn hsock ho =>
    have he := (find_id hf).1
    obtain ⟨t, v, k, h1, h2⟩ := h.reqs e he
    have hdue : Due P (t + v) ep.now := by
      simp only [QEntry.expired, Option.any_eq_true, decide_eq_true_eq] at hx
      obtain ⟨d, hd, hle⟩ := hx
      obtain ⟨rfl, h3⟩ := h2 d hd
      exact ⟨hle, fun hp => Nat.le_antisymm hle (h3 hp)⟩
    refine h.more hs0 [.send .retrans e.id e.m.remote o true ep.now] rfl (by simp [Event.timers]) ⟨rfl, rfl⟩ rfl ?_ ?_ ?_ ?_ ?_
    · intro x hx
      rcases mem_setEntry hx with rfl | ⟨hx, hne⟩
      · refine .inr ⟨ep.now, ep.t1, ep.keepResp, ?_, ?_⟩
        · have := h.timers
          dsimp only at this
          simp [lastSent, Event.sentAt, this]
        · intro d hd
          simp only [Option.some.injEq] at hd
          subst hd
          exact ⟨rfl, fun _ => Nat.le_add_right ..⟩
      · exact .inl ⟨x, hx, rfl, .inl rfl, by simp [Event.sentAt, Ne.symm hne]⟩
    · intro x hx
      refine .inl ⟨x, hx, rfl, .inl rfl, ?_⟩
      have hne : e.id ≠ x.id := by
        intro hid
        obtain ⟨_, _, _, _, _, _, _, hq, _⟩ := h.inv.response (look_of_mem h.inv.nodupResps hx)
        rw [← hid] at hq
        exact look_eq_none hq (List.mem_map_of_mem he)
      simp [Event.sentAt, hne]
    · intro hev
      exact ⟨⟨t, v, k, h1, hdue⟩, hev⟩
    · rintro i ⟨x, hx, hab⟩
      refine .inr ?_
      rw [List.mem_singleton.mp hx] at hab
      have : e.id = i := hab
      subst this
      exact h.inv.req_not_freed he
    · intro i hf
      simp at hf
  case timeout ep e l hb hf hx hr hcb hl =>
    have he := (find_id hf).1
    obtain ⟨t, v, k, h1, h2⟩ := h.reqs e he
    have hdue : Due P (t + v) ep.now := by
      simp only [QEntry.expired, Option.any_eq_true, decide_eq_true_eq] at hx
      obtain ⟨d, hd, hle⟩ := hx
      obtain ⟨rfl, h3⟩ := h2 d hd
      exact ⟨hle, fun hp => Nat.le_antisymm hle (h3 hp)⟩
    have hlt : ∀ x ∈ l, x.timers = none := by
      rcases hl with ⟨_, rfl⟩ | ⟨_, hl⟩
      · simp
      · exact hl.timers
    have hls : ∀ i, ∀ x ∈ l, x.sentAt i = none ∧ ∀ n1 t1 m, x ≠ .passed i n1 t1 m := by
      intro i
      rcases hl with ⟨_, rfl⟩ | ⟨_, hl⟩
      · simp
      · exact hl.notSent i
    refine h.more hs0 (.freed e.id :: l) rfl ?_ ⟨rfl, rfl⟩ rfl ?_ ?_ ?_ ?_ ?_
    · intro x hx
      rcases List.mem_cons.mp hx with rfl | hx
      · rfl
      · exact hlt x hx
    · intro x hx
      refine .inl ⟨x, (List.mem_filter.mp hx).1, rfl, .inl rfl, fun y hy => ?_⟩
      rcases List.mem_cons.mp hy with rfl | hy
      · rfl
      · exact (hls _ y hy).1
    · intro x hx
      refine .inl ⟨x, (List.mem_filter.mp hx).1, rfl, .inl rfl, fun y hy => ?_⟩
      rcases List.mem_cons.mp hy with rfl | hy
      · rfl
      · exact (hls _ y hy).1
    · intro hev
      refine ⟨trivial, ?_⟩
      rcases hl with ⟨_, rfl⟩ | ⟨_, ⟨rfl, _⟩ | ⟨o, _, rfl⟩⟩
      · exact hev
      · exact hev
      · exact ⟨⟨t, v, k, h1, hdue⟩, hev⟩
    · intro i _
      refine .inl fun x hx => ?_
      rcases List.mem_cons.mp hx with rfl | hx
      · simp [Event.sentAt]
      · exact hls i x hx
    · intro i hf' n1 t1 m hp hr'
      exfalso
      rcases List.mem_cons.mp hf' with hid | hf'
      · simp only [Event.freed.injEq] at hid
        subst hid
        have hp' : Event.passed e.id n1 t1 m ∈ ep.log := by
          rcases List.mem_append.mp hp with hp | hp
          · rcases List.mem_cons.mp hp with hp | hp
            · cases hp
            · exact absurd rfl ((hls _ _ hp).2 _ _ _)
          · exact hp
        rw [h.inv.req_info he hp'] at hr'
        cases hr'
      · rcases hl with ⟨_, rfl⟩ | ⟨_, hl⟩
        · cases hf'
        · exact hl.notFreed i hf'
  case timeoutCb ep e e' l hb hf hx hr hcb hl hid ht _ _ _ _ =>
    have he := (find_id hf).1
    obtain ⟨t, v, k, h1, h2⟩ := h.reqs e he
    have hdue : Due P (t + v) ep.now := by
      simp only [QEntry.expired, Option.any_eq_true, decide_eq_true_eq] at hx
      obtain ⟨d, hd, hle⟩ := hx
      obtain ⟨rfl, h3⟩ := h2 d hd
      exact ⟨hle, fun hp => Nat.le_antisymm hle (h3 hp)⟩
    have hlt : ∀ x ∈ l, x.timers = none := by
      rcases hl with ⟨_, rfl⟩ | ⟨_, hl⟩
      · simp
      · exact hl.timers
    have hls : ∀ i, ∀ x ∈ l, x.sentAt i = none ∧ ∀ n1 t1 m, x ≠ .passed i n1 t1 m := by
      intro i
      rcases hl with ⟨_, rfl⟩ | ⟨_, hl⟩
      · simp
      · exact hl.notSent i
    refine h.more hs0 (.respCb e.id none ep.now :: l) rfl ?_ ⟨rfl, rfl⟩ rfl ?_ ?_ ?_ ?_ ?_
    · intro x hx
      rcases List.mem_cons.mp hx with rfl | hx
      · rfl
      · exact hlt x hx
    · intro x hx
      have hno : ∀ i, ∀ y ∈ Event.respCb e.id none ep.now :: l, y.sentAt i = none := by
        intro i y hy
        rcases List.mem_cons.mp hy with rfl | hy
        · rfl
        · exact (hls i y hy).1
      rcases mem_setEntry hx with rfl | ⟨hx, hne⟩
      · exact .inl ⟨e, he, hid.symm, .inr ht, hno _⟩
      · exact .inl ⟨x, hx, rfl, .inl rfl, hno _⟩
    · intro x hx
      refine .inl ⟨x, hx, rfl, .inl rfl, fun y hy => ?_⟩
      rcases List.mem_cons.mp hy with rfl | hy
      · rfl
      · exact (hls _ y hy).1
    · intro hev
      have hlast : lastSent e.id (l ++ ep.log) = some (t, v, k) := by
        rw [lastSent_append fun x hx => (hls _ x hx).1]; exact h1
      refine ⟨fun _ => ⟨t, v, k, hlast, hdue⟩, ?_⟩
      rcases hl with ⟨_, rfl⟩ | ⟨_, ⟨rfl, _⟩ | ⟨o, _, rfl⟩⟩
      · exact hev
      · exact hev
      · exact ⟨⟨t, v, k, h1, hdue⟩, hev⟩
    · intro i _
      refine .inl fun x hx => ?_
      rcases List.mem_cons.mp hx with rfl | hx
      · simp [Event.sentAt]
      · exact hls i x hx
    · intro i hf'
      exfalso
      rcases List.mem_cons.mp hf' with hid | hf'
      · cases hid
      · rcases hl with ⟨_, rfl⟩ | ⟨_, hl⟩
        · cases hf'
        · exact hl.notFreed i hf'
  case complete ep id p hb hex hp =>
    refine h.more hs0 [.freed id] rfl (by simp [Event.timers]) ⟨rfl, rfl⟩ rfl ?_ ?_ (fun h => ⟨trivial, h⟩)
      (fun i _ => .inl (by simp [Event.sentAt])) ?_
    · intro x hx
      exact .inl ⟨x, (List.mem_filter.mp hx).1, rfl, .inl rfl, by simp [Event.sentAt]⟩
    · intro x hx
      exact .inl ⟨x, (List.mem_filter.mp hx).1, rfl, .inl rfl, by simp [Event.sentAt]⟩
    · intro i hf n1 t1 m hp hr
      exfalso
      simp only [List.mem_cons, Event.freed.injEq, List.not_mem_nil, or_false] at hf
      subst hf
      obtain ⟨e, he, rfl⟩ := hex
      have hp' : Event.passed e.id n1 t1 m ∈ ep.log := by simpa using hp
      rw [h.inv.req_info he hp'] at hr
      cases hr
  case expire ep e hb hf hx hr =>
    have he := (find_id hf).1
    obtain ⟨t, v, k, h1, h2⟩ := h.resps e he
    refine h.more hs0 [.freed e.id] rfl (by simp [Event.timers]) ⟨rfl, rfl⟩ rfl ?_ ?_ (fun h => ⟨trivial, h⟩)
      (fun i _ => .inl (by simp [Event.sentAt])) ?_
    · intro x hx
      exact .inl ⟨x, (List.mem_filter.mp hx).1, rfl, .inl rfl, by simp [Event.sentAt]⟩
    · intro x hx
      exact .inl ⟨x, (List.mem_filter.mp hx).1, rfl, .inl rfl, by simp [Event.sentAt]⟩
    · intro i hf n1 t1 m hp hr hd t' v' k' hls
      simp only [List.mem_cons, Event.freed.injEq, List.not_mem_nil, or_false] at hf
      subst hf
      simp only [lastSent, Event.sentAt] at hls
      dsimp only at h1
      rw [h1] at hls
      simp only [Option.some.injEq, Prod.mk.injEq] at hls
      obtain ⟨rfl, rfl, rfl⟩ := hls
      simp only [QEntry.expired, Option.any_eq_true, decide_eq_true_eq] at hx
      obtain ⟨d, hd, hle⟩ := hx
      obtain ⟨rfl, h3⟩ := h2 d hd
      exact hle
  case found => exact h.plain hs0 [] rfl (by simp) ⟨rfl, rfl⟩ rfl ⟨rfl, rfl⟩ id (fun id => .inl (by simp))
  case matched => exact h.plain hs0 [_] rfl (by simp [Event.timers]) ⟨rfl, rfl⟩ rfl ⟨rfl, rfl⟩ (fun h => ⟨trivial, h⟩) (fun id => .inl (by simp [Event.sentAt]))
  case called => exact h.plain hs0 [_] rfl (by simp [Event.timers]) ⟨rfl, rfl⟩ rfl ⟨rfl, rfl⟩ (fun h => ⟨trivial, h⟩) (fun id => .inl (by simp [Event.sentAt]))
  case dispatched => exact h.plain hs0 [_] rfl (by simp [Event.timers]) ⟨rfl, rfl⟩ rfl ⟨rfl, rfl⟩ (fun h => ⟨trivial, h⟩) (fun id => .inl (by simp [Event.sentAt]))
  case dup => exact h.plain hs0 [] rfl (by simp) ⟨rfl, rfl⟩ rfl ⟨rfl, rfl⟩ id (fun id => .inl (by simp))
  case resend ep k e l m' hb hf _ _ hl =>
    have he := (find_id hf).1
    have hls : ∀ i, ∀ x ∈ l, x.sentAt i = none ∧ (∀ n1 t1 m, x ≠ .passed i n1 t1 m) ∧ x ≠ .freed i ∧ x.timers = none ∧ ∀ log, Timely P log x := by
      intro i x hx
      rcases hl with ⟨rfl, _⟩ | ⟨o, ok, _, rfl⟩
      · cases hx
      · rw [List.mem_singleton.mp hx]
        refine ⟨?_, by simp, by simp, rfl, fun _ => trivial⟩
        cases ok <;> rfl
    refine h.more hs0 l rfl (fun x hx => (hls 0 x hx).2.2.2.1) ⟨rfl, rfl⟩ rfl ?_ ?_ (fun h => h.append fun x hx => (hls 0 x hx).2.2.2.2)
      (fun i _ => .inl fun x hx => ⟨(hls i x hx).1, (hls i x hx).2.1⟩) ?_
    · intro x hx
      exact .inl ⟨x, hx, rfl, .inl rfl, fun y hy => (hls _ y hy).1⟩
    · intro x hx
      rcases mem_setEntry hx with rfl | ⟨hx, hne⟩
      · exact .inl ⟨e, he, rfl, .inl rfl, fun y hy => (hls _ y hy).1⟩
      · exact .inl ⟨x, hx, rfl, .inl rfl, fun y hy => (hls _ y hy).1⟩
    · intro i hf'
      exact absurd rfl (hls i _ hf').2.2.1

end Verif
