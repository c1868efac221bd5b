/-
Every message that is passed to osmo_pfcp_endpoint_tx() leads the life described in SpecEndpoint.lean.
-/
import Verif.EndpointSteps
import Verif.SpecEndpoint

namespace Verif

theorem Life.append {id} : ∀ {l : List Event} {log s}, Life id log s → (∀ e ∈ l, ¬ About id e) → Life id (l ++ log) s
  | [], _, _, h, _ => h
  | e :: _, _, s, h, hl =>
    .cons (Life.append h fun e he => hl e (List.mem_cons_of_mem _ he)) (.other s e (hl e (List.mem_cons_self ..)))

theorem Quiet.not_about {e} (h : Quiet e) (id) : ¬ About id e := by cases h <;> simp [About]

/-! ### Lookup -/

/-- The entry of a message in a queue. -/
def look (q : List QEntry) (id : Nat) : Option QEntry := q.find? fun e => e.id = id

@[simp] theorem look_nil (id) : look [] id = none := rfl

theorem look_cons (e : QEntry) (q id) : look (e :: q) id = if e.id = id then some e else look q id := by
  unfold look
  by_cases h : e.id = id
  · rw [if_pos h]; exact List.find?_cons_of_pos (by simpa using h)
  · rw [if_neg h]; exact List.find?_cons_of_neg (by simpa using h)

theorem look_append (a b : List QEntry) (id) : look (a ++ b) id = (look a id).or (look b id) := by
  simp [look]

theorem look_map (f : QEntry → QEntry) (hf : ∀ e, (f e).id = e.id) (q id) :
    look (q.map f) id = (look q id).map f := by
  induction q with
  | nil => rfl
  | cons e q ih =>
    rw [List.map_cons, look_cons, look_cons, hf, ih]
    split <;> rfl

theorem look_filter (q : List QEntry) (i id) :
    look (q.filter fun e => e.id ≠ i) id = if id = i then none else look q id := by
  induction q with
  | nil => simp
  | cons e q ih =>
    by_cases he : e.id = i
    · rw [List.filter_cons_of_neg (by simpa using he), ih, look_cons]
      by_cases hi : id = i
      · simp [hi]
      · rw [if_neg hi, if_neg hi, if_neg (fun h => hi (h.symm.trans he))]
    · rw [List.filter_cons_of_pos (by simpa using he), look_cons, look_cons, ih]
      by_cases hi : id = i
      · simp [hi, he]
      · simp [hi]

theorem look_setEntry (q : List QEntry) (e : QEntry) (id) :
    look (setEntry q e) id = if id = e.id then (look q id).map fun _ => e else look q id := by
  induction q with
  | nil => simp [setEntry]
  | cons x q ih =>
    unfold setEntry at ih ⊢
    rw [List.map_cons, look_cons, look_cons, ih]
    by_cases hx : x.id = e.id
    · by_cases hi : id = e.id
      · simp [hx, hi]
      · have : ¬ e.id = id := fun h => hi h.symm
        simp [hx, hi, this]
    · by_cases hi : id = e.id
      · simp [hx, hi]
      · simp [hx, hi]

theorem look_eq_some {q : List QEntry} {id e} (h : look q id = some e) : e ∈ q ∧ e.id = id := find_id h

theorem look_of_mem {q : List QEntry} (hn : (q.map (·.id)).Nodup) {e} (he : e ∈ q) : look q e.id = some e := by
  induction q with
  | nil => cases he
  | cons x q ih =>
    rw [List.map_cons, List.nodup_cons] at hn
    rw [look_cons]
    rcases List.mem_cons.mp he with rfl | he
    · rw [if_pos rfl]
    · rw [if_neg, ih hn.2 he]
      intro h
      exact hn.1 (h ▸ List.mem_map_of_mem he)

theorem look_eq_none {q : List QEntry} {id} (h : look q id = none) : id ∉ q.map (·.id) := by
  unfold look at h
  rw [List.find?_eq_none] at h
  rintro hm
  obtain ⟨e, he, rfl⟩ := List.mem_map.mp hm
  exact h e he (by simp)

theorem setEntry_ids (q : List QEntry) (e : QEntry) : (setEntry q e).map (·.id) = q.map (·.id) := by
  unfold setEntry
  rw [List.map_map]
  apply List.map_congr_left
  intro x _
  by_cases h : x.id = e.id <;> simp [h]

theorem filter_ids_nodup {q : List QEntry} (h : (q.map (·.id)).Nodup) (p : QEntry → Bool) :
    ((q.filter p).map (·.id)).Nodup :=
  h.sublist (List.filter_sublist.map _)

/-! ### The invariant -/

/-- The message in the queue is the one that was passed, as far as it matters. -/
structure Same (e : QEntry) (m : PMsg) (o : List UInt8) : Prop where
  remote : e.m.remote = m.remote
  isResponse : e.m.isResponse = m.isResponse
  seq : e.m.h.seq = m.h.seq
  hasCb : e.m.hasCb = m.hasCb
  encoded : e.m.encoded = some o

/-- What is being done with the message. -/
def Ph.at (ph : Ph) (id : Nat) : Option PhAt := ph.at'.bind fun x => if x.1 = id then some x.2 else none

/-- Whether osmo_pfcp_endpoint_tx() is calling its resp_cb(). -/
def Ph.txOf (ph : Ph) (id : Nat) : Option Bool := (ph.tx.find? fun x => x.1 = id).map (·.2)

/-- How the stage that follows from the log is reflected in the state. -/
def Fits (rq rs : Option QEntry) (t : Option Bool) (p : Option PhAt) : Stage → Prop
  | .unseen => rq = none ∧ rs = none ∧ t = none ∧ p = none
  | .reported _ _ _ sent => rq = none ∧ rs = none ∧ t = some (!sent) ∧ p = none
  | .waiting _ _ m o left => rs = none ∧ t = none ∧ m.isResponse = false ∧
      ∃ e, rq = some e ∧ Same e m o ∧ e.n1 = left ∧
        (p = none ∧ e.timer.isSome ∨ ∃ k, p = some (.found k m.hasCb))
  | .matched _ _ m k => rs = none ∧ t = none ∧ m.isResponse = false ∧
      ∃ e o, rq = some e ∧ Same e m o ∧ p = some (.matched k m.hasCb)
  | .called _ _ m k => rs = none ∧ t = none ∧ m.isResponse = false ∧
      ∃ e o, rq = some e ∧ Same e m o ∧ p = some (.called k)
  | .dispatched _ _ m k => rs = none ∧ t = none ∧ m.isResponse = false ∧
      ∃ e o, rq = some e ∧ Same e m o ∧ p = some (.dispatched k)
  | .gaveUp _ _ m => rs = none ∧ t = none ∧ m.isResponse = false ∧
      ∃ e o, rq = some e ∧ Same e m o ∧ p = some .gaveUp
  | .kept _ _ m o => rq = none ∧ t = none ∧ m.isResponse = true ∧
      ∃ e, rs = some e ∧ Same e m o ∧ e.timer.isSome ∧ (p = none ∨ ∃ k, p = some (.dup k))
  | .leaked .. => rq = none ∧ rs = none ∧ t = none ∧ p = none
  | .over .. => rq = none ∧ rs = none ∧ t = none ∧ p = none
  | _ => False

/-- The state fits the log, for each message. -/
structure Inv (x : Ep × Ph) : Prop where
  nodupReqs : (x.1.reqs.map (·.id)).Nodup
  nodupResps : (x.1.resps.map (·.id)).Nodup
  busy : x.1.busy = x.2.tx.map (·.1) ++ (x.2.at'.map (·.1)).toList
  nodupBusy : x.1.busy.Nodup
  sock : x.1.reqs ≠ [] ∨ x.1.resps ≠ [] → x.1.sock = true
  life : ∀ id, ∃ s, Life id x.1.log s ∧
    Fits (look x.1.reqs id) (look x.1.resps id) (x.2.txOf id) (x.2.at id) s ∧ (x.1.nextId ≤ id → s = .unseen)

/-- Most steps concern one message. -/
theorem Inv.update {ep ep' : Ep} {ph ph' : Ph} (h : Inv (ep, ph)) (i : Nat) (l : List Event)
    (hlog : ep'.log = l ++ ep.log) (hl : ∀ j, j ≠ i → ∀ e ∈ l, ¬ About j e)
    (hq : ∀ j, j ≠ i → look ep'.reqs j = look ep.reqs j ∧ look ep'.resps j = look ep.resps j ∧
      ph'.txOf j = ph.txOf j ∧ ph'.at j = ph.at j)
    (hn : ep.nextId ≤ ep'.nextId)
    (hi : ∃ s, Life i ep'.log s ∧ Fits (look ep'.reqs i) (look ep'.resps i) (ph'.txOf i) (ph'.at i) s ∧
      (ep'.nextId ≤ i → s = .unseen))
    (nr : (ep'.reqs.map (·.id)).Nodup) (ns : (ep'.resps.map (·.id)).Nodup)
    (hb : ep'.busy = ph'.tx.map (·.1) ++ (ph'.at'.map (·.1)).toList) (nb : ep'.busy.Nodup)
    (hs : ep'.reqs ≠ [] ∨ ep'.resps ≠ [] → ep'.sock = true) : Inv (ep', ph') := by
  refine ⟨nr, ns, hb, nb, hs, fun j => ?_⟩
  by_cases hj : j = i
  · subst hj; exact hi
  · obtain ⟨s, h1, h2, h3⟩ := h.life j
    obtain ⟨q1, q2, q3, q4⟩ := hq j hj
    refine ⟨s, ?_, ?_, fun hle => h3 (Nat.le_trans hn hle)⟩
    · dsimp only; rw [hlog]; exact h1.append (hl j hj)
    · dsimp only at h2 ⊢; rw [q1, q2, q3, q4]; exact h2

/-- A step that concerns no message. -/
theorem Inv.quiet {ep ep' : Ep} {ph : Ph} (h : Inv (ep, ph)) (l : List Event)
    (hlog : ep'.log = l ++ ep.log) (hl : ∀ j, ∀ e ∈ l, ¬ About j e)
    (hq : ep'.reqs = ep.reqs ∧ ep'.resps = ep.resps) (hn : ep.nextId ≤ ep'.nextId)
    (hb : ep'.busy = ep.busy) (hs : ep'.sock = ep.sock) : Inv (ep', ph) := by
  refine ⟨by rw [hq.1]; exact h.nodupReqs, by rw [hq.2]; exact h.nodupResps, by rw [hb]; exact h.busy,
    by rw [hb]; exact h.nodupBusy, by dsimp only; rw [hq.1, hq.2, hs]; exact h.sock, fun j => ?_⟩
  obtain ⟨s, h1, h2, h3⟩ := h.life j
  refine ⟨s, ?_, ?_, fun hle => h3 (Nat.le_trans hn hle)⟩
  · dsimp only; rw [hlog]; exact h1.append (hl j)
  · dsimp only at h2 ⊢; rw [hq.1, hq.2]; exact h2

theorem Inv.fresh {ep : Ep} {ph : Ph} (h : Inv (ep, ph)) {id} (hid : ep.nextId ≤ id) :
    Life id ep.log .unseen ∧ look ep.reqs id = none ∧ look ep.resps id = none ∧ ph.txOf id = none ∧ ph.at id = none ∧
      id ∉ ep.busy := by
  obtain ⟨s, h1, h2, h3⟩ := h.life id
  have := h3 hid
  subst this
  refine ⟨h1, h2.1, h2.2.1, h2.2.2.1, h2.2.2.2, ?_⟩
  rw [h.busy]
  intro hm
  rcases List.mem_append.mp hm with hm | hm
  · obtain ⟨x, hx, rfl⟩ := List.mem_map.mp hm
    have ht := h2.2.2.1
    simp only [Ph.txOf, Option.map_eq_none_iff, List.find?_eq_none] at ht
    exact ht x hx (by simp)
  · have ha := h2.2.2.2
    cases hat : ph.at' with
    | none => simp [hat] at hm
    | some x =>
      simp [hat] at hm
      simp [Ph.at, hat, hm] at ha

theorem Ph.txOf_cons (a : Option (Nat × PhAt)) (i b t) (j : Nat) :
    Ph.txOf ⟨a, (i, b) :: t⟩ j = if i = j then some b else Ph.txOf ⟨a, t⟩ j := by
  unfold Ph.txOf
  by_cases h : i = j
  · simp [h]
  · rw [List.find?_cons_of_neg (by simpa using h), if_neg h]

theorem Ph.txOf_at (a a' : Option (Nat × PhAt)) (t) (j : Nat) : Ph.txOf ⟨a, t⟩ j = Ph.txOf ⟨a', t⟩ j := rfl
theorem Ph.at_tx (a : Option (Nat × PhAt)) (t t') (j : Nat) : Ph.at ⟨a, t⟩ j = Ph.at ⟨a, t'⟩ j := rfl

@[simp] theorem Ph.at_some (i p t) (j : Nat) : Ph.at ⟨some (i, p), t⟩ j = if i = j then some p else none := rfl
@[simp] theorem Ph.at_none (t) (j : Nat) : Ph.at ⟨none, t⟩ j = none := rfl
@[simp] theorem Ph.txOf_nil (a) (j : Nat) : Ph.txOf ⟨a, []⟩ j = none := rfl

/-- Passing a message: the stage after it has been handed to sendto(), successfully or not. -/
theorem Life.refused {ep : Ep} {id log n1 t1 m l} (h : Life id log .unseen) (hl : Refused ep .tx id m l) :
    Life id (l ++ (.passed id n1 t1 m :: log)) (.passed n1 t1 m) ∧ l = [] ∨
    Life id (l ++ (.passed id n1 t1 m :: log)) (.refused n1 t1 m) := by
  have h1 := h.cons (.pass n1 t1 m)
  rcases hl with ⟨rfl, _⟩ | ⟨o, ho, rfl⟩
  · exact .inl ⟨h1, rfl⟩
  · exact .inr (h1.cons (.refuse _ _ _ _ _ ho))

theorem Refused.about {ep : Ep} {why id m l} (h : Refused ep why id m l) : ∀ j, j ≠ id → ∀ e ∈ l, ¬ About j e := by
  rintro j hj e he
  rcases h with ⟨rfl, _⟩ | ⟨o, _, rfl⟩
  · cases he
  · cases List.mem_singleton.mp he
    cases why <;> simp [About, Ne.symm hj]

theorem PMsg.not_wantsCb {m : PMsg} (h : ¬ (m.isResponse = false ∧ m.hasCb = true)) : m.wantsCb = false := by
  unfold PMsg.wantsCb
  cases h1 : m.isResponse <;> cases h2 : m.hasCb <;> simp_all

theorem PMsg.yes_wantsCb {m : PMsg} (h1 : m.isResponse = false) (h2 : m.hasCb = true) : m.wantsCb = true := by
  simp [PMsg.wantsCb, h1, h2]

@[simp] theorem outgoing_wantsCb (ep : Ep) (m : PMsg) : (ep.outgoing m).wantsCb = m.wantsCb := by
  simp [PMsg.wantsCb]

theorem begun_entry_same (ep ep' : Ep) (m o id) :
    Same (ep'.entry id { ep.outgoing m with encoded := some o }) (ep.outgoing m) o :=
  ⟨rfl, rfl, rfl, rfl, rfl⟩

theorem Inv.txQueued {ep : Ep} {ph m o} (h : Inv (ep, ph)) (hs : ep.sock = true) (hn : ¬ (ep.n1 = 0 ∨ ep.t1 = 0))
    (ho : (ep.outgoing m).encode = .ok o) :
    Inv ((((ep.begun m).enqueue ((ep.begun m).entry ep.nextId { ep.outgoing m with encoded := some o })).logs
          [.returned ep.nextId none, .send .tx ep.nextId (ep.outgoing m).remote o true ep.now,
           .passed ep.nextId ep.n1 ep.t1 (ep.outgoing m)]), ph) := by
  obtain ⟨f1, f2, f3, f4, f5, f6⟩ := h.fresh (Nat.le_refl ep.nextId)
  have l3 := ((f1.cons (.pass ep.n1 ep.t1 (ep.outgoing m))).cons (.send _ _ _ _ ep.now ho))
  have hab : ∀ j, j ≠ ep.nextId → ∀ e ∈ [Event.returned ep.nextId none,
      .send .tx ep.nextId (ep.outgoing m).remote o true ep.now,
      .passed ep.nextId ep.n1 ep.t1 (ep.outgoing m)], ¬ About j e := by
    intro j hj e he
    simp only [List.mem_cons, List.not_mem_nil, or_false] at he
    rcases he with rfl | rfl | rfl <;> simp [About, Ne.symm hj]
  have hn1 : ep.n1 ≠ 0 := fun h => hn (.inl h)
  have hn2 : ep.t1 ≠ 0 := fun h => hn (.inr h)
  by_cases hr : m.isResponse = true
  · have l4 := l3.cons (.queueResp _ _ _ _ (by simpa using hr) hn1 hn2)
    have hen : ∀ e : QEntry, e.m.isResponse = true → (ep.begun m).enqueue e =
        { ep.begun m with resps := ep.resps ++ [e] } := by intro e he; simp [Ep.enqueue, he]
    rw [hen _ (by simp [Ep.entry, hr])]
    refine h.update ep.nextId _ (by simp [Ep.logs]) hab ?_ (by simp [Ep.logs]) ?_ ?_ ?_ ?_ ?_ ?_
    · intro j hj
      simp [Ep.logs, look_append, look_cons, Ep.entry, Ne.symm hj]
    · refine ⟨_, by simpa [Ep.logs] using l4, ?_, by simp [Ep.logs]⟩
      refine ⟨by simpa [Ep.logs] using f2, f4, by simpa using hr, (ep.begun m).entry ep.nextId _, ?_,
        begun_entry_same .., rfl, .inl f5⟩
      simp [Ep.logs, look_append, look_cons, Ep.entry, f3]
    · simpa [Ep.logs] using h.nodupReqs
    · simp only [Ep.logs, List.map_append, List.map_cons, List.map_nil]
      refine List.nodup_append.mpr ⟨h.nodupResps, by simp, ?_⟩
      rintro a ha b hb rfl
      simp [Ep.entry] at hb
      exact look_eq_none f3 (hb ▸ ha)
    · simpa [Ep.logs] using h.busy
    · simpa [Ep.logs] using h.nodupBusy
    · simp [Ep.logs, hs]
  · have hr' : m.isResponse = false := by simpa using hr
    have l4 := l3.cons (.queueReq _ _ _ _ (by simpa using hr) hn1 hn2)
    have hen : ∀ e : QEntry, e.m.isResponse = false → (ep.begun m).enqueue e =
        { ep.begun m with reqs := e :: ep.reqs } := by intro e he; simp [Ep.enqueue, he]
    rw [hen _ (by simp [Ep.entry, hr'])]
    refine h.update ep.nextId _ (by simp [Ep.logs]) hab ?_ (by simp [Ep.logs]) ?_ ?_ ?_ ?_ ?_ ?_
    · intro j hj
      simp [Ep.logs, look_cons, Ep.entry, Ne.symm hj]
    · refine ⟨_, by simpa [Ep.logs] using l4, ?_, by simp [Ep.logs]⟩
      refine ⟨by simpa [Ep.logs] using f3, f4, by simpa using hr, (ep.begun m).entry ep.nextId _, ?_,
        begun_entry_same .., by simp [Ep.entry, hr'], .inl ⟨f5, rfl⟩⟩
      simp [Ep.logs, look_cons, Ep.entry]
    · simp only [Ep.logs, List.map_cons]
      exact List.nodup_cons.mpr ⟨look_eq_none f2, h.nodupReqs⟩
    · simpa [Ep.logs] using h.nodupResps
    · simpa [Ep.logs] using h.busy
    · simpa [Ep.logs] using h.nodupBusy
    · simp [Ep.logs, hs]

/-- A message that is passed but not queued; no callback. -/
theorem Inv.passOver {ep : Ep} {ph m s} (h : Inv (ep, ph)) (l : List Event)
    (hl : ∀ j, j ≠ ep.nextId → ∀ e ∈ l, ¬ About j e) (hlife : Life ep.nextId (l ++ ep.log) s)
    (hfit : Fits none none none none s) : Inv ((ep.begun m).logs l, ph) := by
  obtain ⟨f1, f2, f3, f4, f5, f6⟩ := h.fresh (Nat.le_refl ep.nextId)
  refine h.update ep.nextId l (by simp [Ep.logs]) hl (by simp [Ep.logs]) (by simp [Ep.logs]) ?_ ?_ ?_ ?_ ?_ ?_
  · refine ⟨s, by simpa [Ep.logs] using hlife, ?_, fun hle => by simp [Ep.logs] at hle; omega⟩
    simpa [Ep.logs, f2, f3, f4, f5] using hfit
  · simpa [Ep.logs] using h.nodupReqs
  · simpa [Ep.logs] using h.nodupResps
  · simpa [Ep.logs] using h.busy
  · simpa [Ep.logs] using h.nodupBusy
  · simpa [Ep.logs] using h.sock

/-- A message that is passed but not queued; a callback starts. -/
theorem Inv.passCb {ep : Ep} {ph : Ph} {m s b} (h : Inv (ep, ph)) (l : List Event)
    (hl : ∀ j, j ≠ ep.nextId → ∀ e ∈ l, ¬ About j e) (hlife : Life ep.nextId (l ++ ep.log) s)
    (hfit : Fits none none (some b) none s) :
    Inv ({ (ep.begun m).logs l with busy := ep.nextId :: ep.busy }, { ph with tx := (ep.nextId, b) :: ph.tx }) := by
  obtain ⟨f1, f2, f3, f4, f5, f6⟩ := h.fresh (Nat.le_refl ep.nextId)
  refine h.update ep.nextId l (by simp [Ep.logs]) hl ?_ (by simp [Ep.logs]) ?_ ?_ ?_ ?_ ?_ ?_
  · intro j hj
    rw [Ph.txOf_cons, if_neg (Ne.symm hj)]
    exact ⟨by simp [Ep.logs], by simp [Ep.logs], rfl, rfl⟩
  · refine ⟨s, by simpa [Ep.logs] using hlife, ?_, fun hle => by simp [Ep.logs] at hle; omega⟩
    simp only [Ep.logs, begun_reqs, begun_resps, Ph.txOf_cons, if_true, f2, f3]
    rw [Ph.at_tx _ _ ph.tx, f5]
    exact hfit
  · simpa [Ep.logs] using h.nodupReqs
  · simpa [Ep.logs] using h.nodupResps
  · simp only [List.map_cons, List.cons_append]
    rw [← h.busy]
  · exact List.nodup_cons.mpr ⟨f6, h.nodupBusy⟩
  · simpa [Ep.logs] using h.sock

/-- The callback of osmo_pfcp_endpoint_tx() returns. -/
theorem Inv.popCb {ep : Ep} {a t id b bt} (h : Inv (ep, ⟨a, (id, b) :: t⟩)) (hb : ep.busy = id :: bt) (l : List Event)
    (hl : ∀ j, j ≠ id → ∀ e ∈ l, ¬ About j e)
    (hlife : ∀ n1 t1 m, Life id ep.log (.reported n1 t1 m (!b)) →
      ∃ s, Life id (l ++ ep.log) s ∧ Fits none none none none s) :
    Inv ({ ep.logs l with busy := bt }, ⟨a, t⟩) := by
  obtain ⟨s, h1, h2, h3⟩ := h.life id
  have hnb := h.nodupBusy
  have hbb := h.busy
  dsimp only at h1 h2 h3 hnb hbb
  rw [hb] at hnb hbb
  simp only [List.map_cons, List.cons_append, List.cons.injEq, true_and] at hbb
  rw [List.nodup_cons, hbb] at hnb
  have htx : Ph.txOf ⟨a, t⟩ id = none := by
    simp only [Ph.txOf, Option.map_eq_none_iff, List.find?_eq_none]
    intro x hx hxid
    apply hnb.1
    simp only [decide_eq_true_eq] at hxid
    exact List.mem_append_left _ (hxid ▸ List.mem_map_of_mem hx)
  rw [Ph.txOf_cons, if_pos rfl] at h2
  have hs : ∃ n1 t1 m, s = .reported n1 t1 m (!b) ∧ look ep.reqs id = none ∧ look ep.resps id = none ∧
      Ph.at ⟨a, (id, b) :: t⟩ id = none := by
    cases s
    case reported n1 t1 m sent =>
      obtain ⟨e1, e2, e3, e4⟩ := h2
      cases e3
      exact ⟨n1, t1, m, by simp, e1, e2, e4⟩
    all_goals exfalso; simp [Fits] at h2
  obtain ⟨n1, t1, m, rfl, hr, hs, hat⟩ := hs
  obtain ⟨s', hl', hf'⟩ := hlife n1 t1 m h1
  refine h.update id l (by simp [Ep.logs]) hl ?_ (by simp [Ep.logs]) ?_ ?_ ?_ ?_ ?_ ?_
  · intro j hj
    rw [Ph.txOf_cons, if_neg (Ne.symm hj)]
    exact ⟨rfl, rfl, rfl, rfl⟩
  · refine ⟨s', by simpa [Ep.logs] using hl', ?_, fun hle => ?_⟩
    · rw [htx, Ph.at_tx _ _ ((id, b) :: t), hat]
      simp only [Ep.logs, hr, hs]
      exact hf'
    · have := h3 hle
      cases this
  · exact h.nodupReqs
  · exact h.nodupResps
  · exact hbb
  · exact hbb ▸ hnb.2
  · exact h.sock


/-! ### Queued messages -/

theorem Inv.request {ep : Ep} {ph : Ph} (h : Inv (ep, ph)) {id e} (he : look ep.reqs id = some e) (hp : ph.at id = none) :
    ∃ n1 t1 m o, Life id ep.log (.waiting n1 t1 m o e.n1) ∧ Same e m o ∧ m.isResponse = false ∧
      look ep.resps id = none ∧ e.timer.isSome ∧ id < ep.nextId ∧ ph.txOf id = none := by
  obtain ⟨s, h1, h2, h3⟩ := h.life id
  dsimp only at h2
  rw [he, hp] at h2
  cases s
  case waiting n1 t1 m o left =>
    obtain ⟨e1, e2, e3, x, hx, e4, e5, e6⟩ := h2
    cases hx
    subst e5
    refine ⟨n1, t1, m, o, h1, e4, e3, e1, ?_, ?_, e2⟩
    · rcases e6 with e6 | ⟨k, e6⟩
      · exact e6.2
      · cases e6
    · exact Nat.lt_of_not_le fun hle => by cases h3 hle
  all_goals exfalso; simp [Fits] at h2

theorem Inv.response {ep : Ep} {ph : Ph} (h : Inv (ep, ph)) {id e} (he : look ep.resps id = some e) :
    ∃ n1 t1 m o, Life id ep.log (.kept n1 t1 m o) ∧ Same e m o ∧ m.isResponse = true ∧
      look ep.reqs id = none ∧ e.timer.isSome ∧ id < ep.nextId ∧ ph.txOf id = none ∧
      (ph.at id = none ∨ ∃ k, ph.at id = some (.dup k)) := by
  obtain ⟨s, h1, h2, h3⟩ := h.life id
  dsimp only at h2
  rw [he] at h2
  cases s
  case kept n1 t1 m o =>
    obtain ⟨e1, e2, e3, x, hx, e4, e5, e6⟩ := h2
    cases hx
    exact ⟨n1, t1, m, o, h1, e4, e3, e1, e5, Nat.lt_of_not_le (fun hle => by cases h3 hle), e2, e6⟩
  all_goals exfalso; simp [Fits] at h2

/-- A request that is queued, whatever is going on. -/
theorem Inv.requestAny {ep : Ep} {ph : Ph} (h : Inv (ep, ph)) {id e} (he : look ep.reqs id = some e) :
    ∃ n1 t1 m o s, Life id ep.log s ∧ Same e m o ∧ m.isResponse = false ∧ look ep.resps id = none ∧
      id < ep.nextId ∧ ph.txOf id = none ∧ e.m.encoded = some o ∧
      (s = .waiting n1 t1 m o e.n1 ∧ (ph.at id = none ∧ e.timer.isSome ∨ ∃ k, ph.at id = some (.found k m.hasCb)) ∨
       (∃ k, s = .matched n1 t1 m k ∧ ph.at id = some (.matched k m.hasCb)) ∨
       (∃ k, s = .called n1 t1 m k ∧ ph.at id = some (.called k)) ∨
       (∃ k, s = .dispatched n1 t1 m k ∧ ph.at id = some (.dispatched k)) ∨
       s = .gaveUp n1 t1 m ∧ ph.at id = some .gaveUp) := by
  obtain ⟨s, h1, h2, h3⟩ := h.life id
  dsimp only at h2
  rw [he] at h2
  have hlt : s ≠ .unseen → id < ep.nextId := fun hne => Nat.lt_of_not_le fun hle => hne (h3 hle)
  cases s
  case waiting n1 t1 m o left =>
    obtain ⟨e1, e2, e3, x, hx, e4, e5, e6⟩ := h2
    cases hx
    subst e5
    exact ⟨n1, t1, m, o, _, h1, e4, e3, e1, hlt (by simp), e2, e4.encoded, .inl ⟨rfl, e6⟩⟩
  case matched n1 t1 m k =>
    obtain ⟨e1, e2, e3, x, o, hx, e4, e5⟩ := h2
    cases hx
    exact ⟨n1, t1, m, o, _, h1, e4, e3, e1, hlt (by simp), e2, e4.encoded, .inr (.inl ⟨k, rfl, e5⟩)⟩
  case called n1 t1 m k =>
    obtain ⟨e1, e2, e3, x, o, hx, e4, e5⟩ := h2
    cases hx
    exact ⟨n1, t1, m, o, _, h1, e4, e3, e1, hlt (by simp), e2, e4.encoded, .inr (.inr (.inl ⟨k, rfl, e5⟩))⟩
  case dispatched n1 t1 m k =>
    obtain ⟨e1, e2, e3, x, o, hx, e4, e5⟩ := h2
    cases hx
    exact ⟨n1, t1, m, o, _, h1, e4, e3, e1, hlt (by simp), e2, e4.encoded, .inr (.inr (.inr (.inl ⟨k, rfl, e5⟩)))⟩
  case gaveUp n1 t1 m =>
    obtain ⟨e1, e2, e3, x, o, hx, e4, e5⟩ := h2
    cases hx
    exact ⟨n1, t1, m, o, _, h1, e4, e3, e1, hlt (by simp), e2, e4.encoded, .inr (.inr (.inr (.inr ⟨rfl, e5⟩)))⟩
  all_goals exfalso; simp [Fits] at h2

/-- Something is being done with a message: it is busy. -/
theorem Inv.busy_at {ep : Ep} {id p t} (h : Inv (ep, ⟨some (id, p), t⟩)) : id ∈ ep.busy := by
  rw [h.busy]; simp

theorem Inv.tx_nil {ep : Ep} {id : Nat} {p t} (h : Inv (ep, ⟨some (id, p), t⟩)) (hb : ep.busy = [id]) : t = [] := by
  have := h.busy
  simp only [hb] at this
  cases t with
  | nil => rfl
  | cons x t => simp at this

theorem msgInvalidateCtx_same (m : PMsg) (fi) :
    (msgInvalidateCtx m fi).remote = m.remote ∧ (msgInvalidateCtx m fi).isResponse = m.isResponse ∧
    (msgInvalidateCtx m fi).h = m.h ∧ (msgInvalidateCtx m fi).hasCb = m.hasCb ∧
    (msgInvalidateCtx m fi).encoded = m.encoded ∧ (msgInvalidateCtx m fi).ies = m.ies := by
  unfold msgInvalidateCtx PMsg.hasCb
  dsimp only
  split <;> split <;> simp

theorem Inv.invalidate {ep : Ep} {ph : Ph} (h : Inv (ep, ph)) (fi) : Inv (ep.dropCtx fi, ph) := by
  have hm : ∀ q : List QEntry, (q.map fun e => { e with m := msgInvalidateCtx e.m fi }).map (·.id) = q.map (·.id) := by
    intro q; rw [List.map_map]; rfl
  have hsame : ∀ e m o, Same e m o → Same { e with m := msgInvalidateCtx e.m fi } m o := by
    intro e m o s
    obtain ⟨h1, h2, h3, h4, h5, _⟩ := msgInvalidateCtx_same e.m fi
    exact ⟨h1.trans s.remote, h2.trans s.isResponse, by dsimp only; rw [h3]; exact s.seq, h4.trans s.hasCb, h5.trans s.encoded⟩
  refine ⟨?_, ?_, h.busy, h.nodupBusy, ?_, fun id => ?_⟩
  · simp only [Ep.dropCtx]; rw [hm]; exact h.nodupReqs
  · simp only [Ep.dropCtx]; rw [hm]; exact h.nodupResps
  · simpa [Ep.dropCtx] using h.sock
  · obtain ⟨s, h1, h2, h3⟩ := h.life id
    refine ⟨s, h1, ?_, h3⟩
    simp only [Ep.dropCtx]
    rw [look_map _ (by simp), look_map _ (by simp)]
    cases s <;> simp only [Fits, Option.map_eq_none_iff] at h2 ⊢
    case waiting n1 t1 m o left =>
      obtain ⟨e1, e2, e3, e, he, e4, e5⟩ := h2
      exact ⟨e1, e2, e3, _, by rw [he]; rfl, hsame _ _ _ e4, e5⟩
    case matched n1 t1 m k =>
      obtain ⟨e1, e2, e3, e, o, he, e4, e5⟩ := h2
      exact ⟨e1, e2, e3, _, o, by rw [he]; rfl, hsame _ _ _ e4, e5⟩
    case called n1 t1 m k =>
      obtain ⟨e1, e2, e3, e, o, he, e4, e5⟩ := h2
      exact ⟨e1, e2, e3, _, o, by rw [he]; rfl, hsame _ _ _ e4, e5⟩
    case dispatched n1 t1 m k =>
      obtain ⟨e1, e2, e3, e, o, he, e4, e5⟩ := h2
      exact ⟨e1, e2, e3, _, o, by rw [he]; rfl, hsame _ _ _ e4, e5⟩
    case gaveUp n1 t1 m =>
      obtain ⟨e1, e2, e3, e, o, he, e4, e5⟩ := h2
      exact ⟨e1, e2, e3, _, o, by rw [he]; rfl, hsame _ _ _ e4, e5⟩
    case kept n1 t1 m o =>
      obtain ⟨e1, e2, e3, e, he, e4, e5⟩ := h2
      exact ⟨e1, e2, e3, _, by rw [he]; rfl, hsame _ _ _ e4, e5⟩
    all_goals exact h2

/-! ### osmo_pfcp_endpoint_close() -/

/-- What osmo_pfcp_endpoint_close() does with a queue, according to the log. -/
def dropEvents (q : List QEntry) : List Event :=
  (q.map fun e => [Event.dropped e.id, Event.freed e.id]).flatten.reverse

theorem dropEvents_cons (e : QEntry) (q log) :
    dropEvents (e :: q) ++ log = dropEvents q ++ (.freed e.id :: .dropped e.id :: log) := by
  simp [dropEvents]

theorem drop_other {id} : ∀ {q : List QEntry} {log s}, Life id log s → id ∉ q.map (·.id) → Life id (dropEvents q ++ log) s
  | [], _, _, h, _ => h
  | e :: q, log, s, h, hn => by
    rw [dropEvents_cons]
    simp only [List.map_cons, List.mem_cons, not_or] at hn
    refine drop_other ((h.cons (.other _ _ ?_)).cons (.other _ _ ?_)) hn.2
    · exact fun h => hn.1 h.symm
    · exact fun h => hn.1 h.symm

theorem drop_queued {id} : ∀ {q : List QEntry} {log s}, Life id log s → id ∈ q.map (·.id) → (q.map (·.id)).Nodup →
    (∃ n1 t1 m o left, s = .waiting n1 t1 m o left) ∨ (∃ n1 t1 m o, s = .kept n1 t1 m o) →
    ∃ n1 t1 m, Life id (dropEvents q ++ log) (.over n1 t1 m true)
  | [], _, _, _, h, _, _ => by simp at h
  | e :: q, log, s, h, hm, hn, hs => by
    rw [dropEvents_cons]
    simp only [List.map_cons, List.mem_cons] at hm
    simp only [List.map_cons, List.nodup_cons] at hn
    by_cases he : id = e.id
    · subst he
      rcases hs with ⟨n1, t1, m, o, left, rfl⟩ | ⟨n1, t1, m, o, rfl⟩
      · exact ⟨n1, t1, m, drop_other ((h.cons (.dropReq ..)).cons (.dropFree ..)) hn.1⟩
      · exact ⟨n1, t1, m, drop_other ((h.cons (.dropResp ..)).cons (.dropFree ..)) hn.1⟩
    · refine drop_queued ((h.cons (.other _ _ ?_)).cons (.other _ _ ?_)) (hm.resolve_left he) hn.2 hs
      · exact fun h => he h.symm
      · exact fun h => he h.symm

theorem Inv.nodupBoth {ep : Ep} {ph : Ph} (h : Inv (ep, ph)) : ((ep.reqs ++ ep.resps).map (·.id)).Nodup := by
  rw [List.map_append]
  refine List.nodup_append.mpr ⟨h.nodupReqs, h.nodupResps, ?_⟩
  rintro a ha b hb rfl
  obtain ⟨e, he, rfl⟩ := List.mem_map.mp ha
  have hl := look_of_mem h.nodupReqs he
  obtain ⟨_, _, _, _, _, _, _, _, hr, _⟩ := h.requestAny hl
  exact look_eq_none hr hb

theorem Inv.at_busy {ep : Ep} {ph : Ph} (h : Inv (ep, ph)) {id} (hn : id ∉ ep.busy) : ph.at id = none := by
  have hb := h.busy
  cases ha : ph.at' with
  | none => simp [Ph.at, ha]
  | some x =>
    have : x.1 ≠ id := by
      rintro rfl
      apply hn
      dsimp only at hb
      rw [hb, ha]
      simp
    simp [Ph.at, ha, this]

theorem Inv.close {ep : Ep} {ph : Ph} (h : Inv (ep, ph)) (hnb : ¬ ((ep.reqs ++ ep.resps).any fun e => ep.busy.contains e.id) = true) : Inv (ep.closed, ph) := by
  have hnb' : ∀ e ∈ ep.reqs ++ ep.resps, e.id ∉ ep.busy := by
    intro e he hb
    apply hnb
    simp only [List.any_eq_true, List.contains_iff_mem]
    exact ⟨e, he, hb⟩
  have hd := h.nodupBoth
  refine ⟨by simp [Ep.closed], by simp [Ep.closed], h.busy, h.nodupBusy, by simp [Ep.closed], fun id => ?_⟩
  obtain ⟨s, h1, h2, h3⟩ := h.life id
  show ∃ s, Life id (dropEvents (ep.reqs ++ ep.resps) ++ ep.log) s ∧ Fits none none (ph.txOf id) (ph.at id) s ∧ _
  by_cases hm : id ∈ (ep.reqs ++ ep.resps).map (·.id)
  · obtain ⟨e, he, rfl⟩ := List.mem_map.mp hm
    have hat : ph.at e.id = none := h.at_busy (hnb' e he)
    have : ∃ n1 t1 m, Life e.id (dropEvents (ep.reqs ++ ep.resps) ++ ep.log) (.over n1 t1 m true) ∧
        e.id < ep.nextId ∧ ph.txOf e.id = none := by
      rcases List.mem_append.mp he with he | he
      · obtain ⟨n1, t1, m, o, hw, _, _, _, _, hlt, ht⟩ := h.request (look_of_mem h.nodupReqs he) hat
        obtain ⟨a, b, c, hl⟩ := drop_queued hw hm hd (.inl ⟨_, _, _, _, _, rfl⟩)
        exact ⟨a, b, c, hl, hlt, ht⟩
      · obtain ⟨n1, t1, m, o, hw, _, _, _, _, hlt, ht, _⟩ := h.response (look_of_mem h.nodupResps he)
        obtain ⟨a, b, c, hl⟩ := drop_queued hw hm hd (.inr ⟨_, _, _, _, rfl⟩)
        exact ⟨a, b, c, hl, hlt, ht⟩
    obtain ⟨n1, t1, m, hl, hlt, ht⟩ := this
    refine ⟨_, hl, ?_, fun hle => absurd hle (by dsimp only [Ep.closed]; omega)⟩
    rw [ht, hat]
    exact ⟨rfl, rfl, rfl, rfl⟩
  · refine ⟨s, drop_other h1 hm, ?_, h3⟩
    have hr : look ep.reqs id = none := by
      cases hl : look ep.reqs id with
      | none => rfl
      | some e =>
        obtain ⟨he, rfl⟩ := look_eq_some hl
        exact absurd (List.mem_map_of_mem (List.mem_append_left _ he)) hm
    have hs : look ep.resps id = none := by
      cases hl : look ep.resps id with
      | none => rfl
      | some e =>
        obtain ⟨he, rfl⟩ := look_eq_some hl
        exact absurd (List.mem_map_of_mem (List.mem_append_right _ he)) hm
    dsimp only at h2
    rw [hr, hs] at h2
    exact h2


/-! ### Timers and reception -/

theorem Same.encode {e m o} (h : Same e m o) : e.m.encode = .ok o := by
  simp [PMsg.encode, h.encoded]

theorem Refused.queued {ep : Ep} {e m o l why} (hs : Same e m o) (hk : ep.sock = true) (h : Refused ep why e.id e.m l) :
    l = [.send why e.id m.remote o false ep.now] := by
  rcases h with ⟨_, hn | hn⟩ | ⟨o', ho, rfl⟩
  · rw [hk] at hn; cases hn
  · exact absurd hs.encode (hn o)
  · rw [hs.encode] at ho; cases ho; rw [hs.remote]

theorem Inv.sockOn {ep : Ep} {ph : Ph} (h : Inv (ep, ph)) {id e} (he : look ep.reqs id = some e) : ep.sock = true :=
  h.sock (.inl fun hn => by dsimp only at hn; rw [hn] at he; simp at he)

theorem Inv.sockOn' {ep : Ep} {ph : Ph} (h : Inv (ep, ph)) {id e} (he : look ep.resps id = some e) : ep.sock = true :=
  h.sock (.inr fun hn => by dsimp only at hn; rw [hn] at he; simp at he)

theorem notAbout_one {i : Nat} {e : Event} (h : ∀ j, About j e → j = i) : ∀ j, j ≠ i → ∀ x ∈ [e], ¬ About j x := by
  intro j hj x hx ha
  cases List.mem_singleton.mp hx
  exact hj (h j ha)

theorem setEntry_ne_nil {q : List QEntry} {e} : setEntry q e ≠ [] ↔ q ≠ [] := by
  simp [setEntry]

theorem Inv.retrans {ep : Ep} {e o} (h : Inv (ep, {})) (hf : look ep.reqs e.id = some e) (hn : e.n1 ≠ 0)
    (ho : e.m.encode = .ok o) :
    Inv ({ ep with reqs := setEntry ep.reqs
                    { e with m := { e.m with encoded := some o }, n1 := e.n1 - 1, timer := some (ep.now + ep.t1) }
                   log := .send .retrans e.id e.m.remote o true ep.now :: ep.log }, {}) := by
  obtain ⟨n1, t1, m, o', hl, hs, hr, hrs, _, hlt, _⟩ := h.request hf rfl
  rw [hs.encode] at ho
  cases ho
  refine h.update e.id [.send .retrans e.id e.m.remote o true ep.now] rfl
    (notAbout_one fun j ha => ha.symm) ?_ (Nat.le_refl _) ?_ ?_ h.nodupResps h.busy h.nodupBusy ?_
  · intro j hj
    refine ⟨?_, rfl, rfl, rfl⟩
    dsimp only
    rw [look_setEntry, if_neg hj]
  · refine ⟨.waiting n1 t1 m o (e.n1 - 1), ?_, ⟨hrs, rfl, hr,
        { e with m := { e.m with encoded := some o }, n1 := e.n1 - 1, timer := some (ep.now + ep.t1) },
        ?_, ?_, rfl, .inl ⟨rfl, rfl⟩⟩,
      fun hle => absurd hle (Nat.not_le.mpr hlt)⟩
    · refine Life.cons hl ?_
      rw [hs.remote]
      have : e.n1 = (e.n1 - 1) + 1 := by omega
      rw [this]
      exact .retrans _ _ _ _ _ _
    · dsimp only
      rw [look_setEntry, if_pos rfl, hf]
      rfl
    · exact ⟨hs.remote, hs.isResponse, hs.seq, hs.hasCb, rfl⟩
  · dsimp only; rw [setEntry_ids]; exact h.nodupReqs
  · dsimp only; rw [setEntry_ne_nil]; exact h.sock

/-- An entry is removed from the queues. -/
theorem Inv.remove {ep : Ep} {ph : Ph} {id} (h : Inv (ep, ph)) (l : List Event)
    (hl : ∀ j, j ≠ id → ∀ e ∈ l, ¬ About j e) (hp : ∀ j, j ≠ id → ph.at j = none) (ht : ph.tx = [])
    (hlife : ∃ n1 t1 m, Life id (l ++ ep.log) (.over n1 t1 m false)) (hlt : id < ep.nextId) :
    Inv ({ ep with reqs := ep.reqs.filter fun x => x.id ≠ id
                   resps := ep.resps.filter fun x => x.id ≠ id
                   busy := []
                   log := l ++ ep.log }, {}) := by
  obtain ⟨n1, t1, m, hlife⟩ := hlife
  refine h.update id l rfl hl ?_ (Nat.le_refl _) ?_ ?_ ?_ rfl List.nodup_nil ?_
  · intro j hj
    dsimp only
    rw [look_filter, look_filter, if_neg hj, if_neg hj, hp j hj]
    refine ⟨rfl, rfl, ?_, rfl⟩
    simp [Ph.txOf, ht]
  · refine ⟨_, hlife, ?_, fun hle => absurd hle (Nat.not_le.mpr hlt)⟩
    dsimp only
    rw [look_filter, look_filter, if_pos rfl, if_pos rfl]
    exact ⟨rfl, rfl, rfl, rfl⟩
  · exact filter_ids_nodup h.nodupReqs _
  · exact filter_ids_nodup h.nodupResps _
  · intro hne
    apply h.sock
    rcases hne with hne | hne
    · exact .inl fun h0 => hne (by dsimp only at h0 ⊢; rw [h0]; rfl)
    · exact .inr fun h0 => hne (by dsimp only at h0 ⊢; rw [h0]; rfl)

/-- The stage when retransmission ends. -/
theorem Inv.stops {ep : Ep} {e l} (h : Inv (ep, {})) (hf : look ep.reqs e.id = some e)
    (hl : e.n1 = 0 ∧ l = [] ∨ e.n1 ≠ 0 ∧ Refused ep .retrans e.id e.m l) :
    ∃ n1 t1 m o, Same e m o ∧ m.isResponse = false ∧ look ep.resps e.id = none ∧ e.id < ep.nextId ∧
      (∀ j, j ≠ e.id → ∀ x ∈ l, ¬ About j x) ∧
      (Life e.id (l ++ ep.log) (.waiting n1 t1 m o 0) ∨ Life e.id (l ++ ep.log) (.stuck n1 t1 m)) := by
  obtain ⟨n1, t1, m, o', hli, hs, hr, hrs, _, hlt, _⟩ := h.request hf rfl
  refine ⟨n1, t1, m, o', hs, hr, hrs, hlt, ?_⟩
  rcases hl with ⟨h0, rfl⟩ | ⟨h0, hl⟩
  · rw [h0] at hli
    exact ⟨by simp, .inl hli⟩
  · have := hl.queued hs (h.sockOn hf)
    subst this
    refine ⟨notAbout_one fun j ha => ha.symm, .inr ?_⟩
    refine Life.cons hli ?_
    have : e.n1 = (e.n1 - 1) + 1 := by omega
    rw [this]
    exact .retransFail _ _ _ _ _ _

theorem Inv.timeout {ep : Ep} {e l} (h : Inv (ep, {})) (hb : ep.busy = []) (hf : look ep.reqs e.id = some e)
    (hc : e.m.hasCb = false) (hl : e.n1 = 0 ∧ l = [] ∨ e.n1 ≠ 0 ∧ Refused ep .retrans e.id e.m l) :
    Inv ({ ep with reqs := ep.reqs.filter fun x => x.id ≠ e.id
                   resps := ep.resps.filter fun x => x.id ≠ e.id
                   log := .freed e.id :: l ++ ep.log }, {}) := by
  obtain ⟨n1, t1, m, o, hs, hr, hrs, hlt, hab, hli⟩ := h.stops hf hl
  have := h.remove (id := e.id) (.freed e.id :: l) ?_ (fun _ _ => rfl) rfl ⟨n1, t1, m, ?_⟩ hlt
  · rw [← hb] at this; exact this
  · intro j hj x hx
    rcases List.mem_cons.mp hx with rfl | hx
    · exact fun ha => hj ha.symm
    · exact hab j hj x hx
  · rw [hs.hasCb] at hc
    rcases hli with hli | hli
    · exact hli.cons (.giveUpNoCb _ _ _ _ hc)
    · exact hli.cons (.giveUpStuckNoCb _ _ _ hc)

theorem Inv.timeoutCb {ep : Ep} {e e' l} (h : Inv (ep, {})) (hf : look ep.reqs e.id = some e)
    (hc : e.m.hasCb = true) (hl : e.n1 = 0 ∧ l = [] ∨ e.n1 ≠ 0 ∧ Refused ep .retrans e.id e.m l)
    (hid : e'.id = e.id) (hm : e.m.encoded.isSome → e'.m = e.m) :
    Inv ({ ep with reqs := setEntry ep.reqs e', busy := [e.id]
                   log := .respCb e.id none ep.now :: l ++ ep.log }, { at' := some (e.id, .gaveUp) }) := by
  obtain ⟨n1, t1, m, o, hs, hr, hrs, hlt, hab, hli⟩ := h.stops hf hl
  have hm' := hm (by rw [hs.encoded]; rfl)
  refine h.update e.id (.respCb e.id none ep.now :: l) rfl ?_ ?_ (Nat.le_refl _) ?_ ?_ h.nodupResps rfl (by simp) ?_
  · intro j hj x hx
    rcases List.mem_cons.mp hx with rfl | hx
    · exact fun ha => hj ha.symm
    · exact hab j hj x hx
  · intro j hj
    refine ⟨?_, rfl, rfl, ?_⟩
    · dsimp only; rw [look_setEntry, hid, if_neg hj]
    · rw [Ph.at_some, if_neg (Ne.symm hj)]; rfl
  · refine ⟨.gaveUp n1 t1 m, ?_, ⟨hrs, rfl, hr, e', o, ?_, ?_, ?_⟩, fun hle => absurd hle (Nat.not_le.mpr hlt)⟩
    · rw [hs.hasCb] at hc
      rcases hli with hli | hli
      · exact hli.cons (.giveUp _ _ _ _ _ hc)
      · exact hli.cons (.giveUpStuck _ _ _ _ hc)
    · dsimp only; rw [look_setEntry, hid, if_pos rfl, hf]; rfl
    · exact ⟨hm' ▸ hs.remote, hm' ▸ hs.isResponse, hm' ▸ hs.seq, hm' ▸ hs.hasCb, hm' ▸ hs.encoded⟩
    · rw [Ph.at_some, if_pos rfl]
  · dsimp only; rw [setEntry_ids]; exact h.nodupReqs
  · dsimp only; rw [setEntry_ne_nil]; exact h.sock

/-- A message on which something is being done, and that is queued. -/
theorem Inv.current {ep : Ep} {id p t} (h : Inv (ep, ⟨some (id, p), t⟩)) (hp : ∀ k, p ≠ .dup k) :
    ∃ e, look ep.reqs id = some e := by
  obtain ⟨s, _, h2, _⟩ := h.life id
  dsimp only at h2
  rw [Ph.at_some, if_pos rfl] at h2
  cases s
  case waiting n1 t1 m o left => obtain ⟨_, _, _, e, he, _⟩ := h2; exact ⟨e, he⟩
  case matched n1 t1 m k => obtain ⟨_, _, _, e, _, he, _⟩ := h2; exact ⟨e, he⟩
  case called n1 t1 m k => obtain ⟨_, _, _, e, _, he, _⟩ := h2; exact ⟨e, he⟩
  case dispatched n1 t1 m k => obtain ⟨_, _, _, e, _, he, _⟩ := h2; exact ⟨e, he⟩
  case gaveUp n1 t1 m => obtain ⟨_, _, _, e, _, he, _⟩ := h2; exact ⟨e, he⟩
  all_goals exfalso; simp [Fits, hp] at h2

theorem Inv.complete {ep : Ep} {id p} (h : Inv (ep, ⟨some (id, p), []⟩))
    (hp : p = .gaveUp ∨ (∃ k, p = .called k) ∨ ∃ k, p = .dispatched k) :
    Inv ({ ep with reqs := ep.reqs.filter fun x => x.id ≠ id
                   resps := ep.resps.filter fun x => x.id ≠ id
                   busy := []
                   log := .freed id :: ep.log }, {}) := by
  have hnd : ∀ k, p ≠ .dup k := by rintro _ rfl; simp at hp
  obtain ⟨e, he⟩ := h.current hnd
  obtain ⟨n1, t1, m, o, s, hl, hs, hr, hrs, hlt, _, _, hcase⟩ := h.requestAny he
  refine h.remove [.freed id] (notAbout_one fun j ha => ha.symm) ?_ rfl ⟨n1, t1, m, ?_⟩ hlt
  · intro j hj; rw [Ph.at_some, if_neg (Ne.symm hj)]
  · simp only [Ph.at_some, if_true] at hcase
    rcases hcase with ⟨_, hc⟩ | ⟨k, _, hc⟩ | ⟨k, rfl, hc⟩ | ⟨k, rfl, hc⟩ | ⟨rfl, hc⟩
    · rcases hc with ⟨hc, _⟩ | ⟨k, hc⟩
      · cases hc
      · cases hc; simp at hp
    · cases hc; simp at hp
    · exact hl.cons (.freeCalled _ _ _ _)
    · exact hl.cons (.freeDispatched _ _ _ _)
    · exact hl.cons (.giveUpFree _ _ _)

theorem Inv.expire {ep : Ep} {e} (h : Inv (ep, {})) (hb : ep.busy = []) (hf : look ep.resps e.id = some e) :
    Inv ({ ep with reqs := ep.reqs.filter fun x => x.id ≠ e.id
                   resps := ep.resps.filter fun x => x.id ≠ e.id
                   log := .freed e.id :: ep.log }, {}) := by
  obtain ⟨n1, t1, m, o, hl, hs, _, _, _, hlt, _⟩ := h.response hf
  have := h.remove (id := e.id) [.freed e.id] (notAbout_one fun j ha => ha.symm) (fun _ _ => rfl) rfl
    ⟨n1, t1, m, hl.cons (.expire ..)⟩ hlt
  rw [← hb] at this
  exact this

theorem Inv.found {ep : Ep} {k e} (h : Inv (ep, {})) (he : e ∈ ep.reqs) :
    Inv ({ ep with busy := [e.id] }, { at' := some (e.id, .found k e.m.hasCb) }) := by
  have hf := look_of_mem h.nodupReqs he
  obtain ⟨n1, t1, m, o, hl, hs, hr, hrs, _, hlt, _⟩ := h.request hf rfl
  refine h.update e.id [] rfl (by simp) ?_ (Nat.le_refl _) ?_ h.nodupReqs h.nodupResps rfl (by simp) h.sock
  · intro j hj
    refine ⟨rfl, rfl, rfl, ?_⟩
    rw [Ph.at_some, if_neg (Ne.symm hj)]
    rfl
  · refine ⟨_, hl, ⟨hrs, rfl, hr, e, hf, hs, rfl, .inr ⟨k, ?_⟩⟩, fun hle => absurd hle (Nat.not_le.mpr hlt)⟩
    rw [Ph.at_some, if_pos rfl, hs.hasCb]

/-- A callback is called for the current message. -/
theorem Inv.noteAt {ep : Ep} {id p p'} {ev : Event} (h : Inv (ep, ⟨some (id, p), []⟩)) (hnd : ∀ k, p ≠ .dup k)
    (hev : ∀ j, About j ev → j = id)
    (hnext : ∀ e n1 t1 m o s, Same e m o → Life id ep.log s → m.isResponse = false →
      (s = .waiting n1 t1 m o e.n1 ∧ (∃ k, p = .found k m.hasCb) ∨
       (∃ k, s = .matched n1 t1 m k ∧ p = .matched k m.hasCb) ∨
       (∃ k, s = .called n1 t1 m k ∧ p = .called k) ∨
       (∃ k, s = .dispatched n1 t1 m k ∧ p = .dispatched k) ∨
       s = .gaveUp n1 t1 m ∧ p = .gaveUp) →
      ∃ s', Next id s ev s' ∧ Fits (some e) none none (some p') s' ∧ s' ≠ .unseen) :
    Inv (ep.note ev, ⟨some (id, p'), []⟩) := by
  obtain ⟨e, he⟩ := h.current hnd
  obtain ⟨n1, t1, m, o, s, hl, hs, hr, hrs, hlt, _, _, hcase⟩ := h.requestAny he
  simp only [Ph.at_some, if_true] at hcase
  obtain ⟨s', h1, h2, h3⟩ := hnext e n1 t1 m o s hs hl hr (by
    rcases hcase with ⟨h1, hc⟩ | ⟨k, h1, hc⟩ | ⟨k, h1, hc⟩ | ⟨k, h1, hc⟩ | ⟨h1, hc⟩
    · rcases hc with ⟨hc, _⟩ | ⟨k, hc⟩
      · cases hc
      · cases hc; exact .inl ⟨h1, k, rfl⟩
    · cases hc; exact .inr (.inl ⟨k, h1, rfl⟩)
    · cases hc; exact .inr (.inr (.inl ⟨k, h1, rfl⟩))
    · cases hc; exact .inr (.inr (.inr (.inl ⟨k, h1, rfl⟩)))
    · cases hc; exact .inr (.inr (.inr (.inr ⟨h1, rfl⟩))))
  refine h.update id [ev] rfl (notAbout_one hev) ?_ (Nat.le_refl _) ?_ h.nodupReqs h.nodupResps ?_ h.nodupBusy h.sock
  · intro j hj
    refine ⟨rfl, rfl, rfl, ?_⟩
    simp [Ne.symm hj]
  · refine ⟨s', hl.cons h1, ?_, fun hle => absurd hle (Nat.not_le.mpr hlt)⟩
    simp only [Ep.note, Ph.at_some, if_true, he, hrs]
    exact h2
  · exact h.busy

theorem Inv.dup {ep : Ep} {k e} (h : Inv (ep, {})) (he : e ∈ ep.resps) :
    Inv ({ ep with busy := [e.id] }, { at' := some (e.id, .dup k) }) := by
  have hf := look_of_mem h.nodupResps he
  obtain ⟨n1, t1, m, o, hl, hs, hr, hrs, ht, hlt, _⟩ := h.response hf
  refine h.update e.id [] rfl (by simp) ?_ (Nat.le_refl _) ?_ h.nodupReqs h.nodupResps rfl (by simp) h.sock
  · intro j hj
    refine ⟨rfl, rfl, rfl, ?_⟩
    rw [Ph.at_some, if_neg (Ne.symm hj)]
    rfl
  · refine ⟨_, hl, ⟨hrs, rfl, hr, e, hf, hs, ht, .inr ?_⟩, fun hle => absurd hle (Nat.not_le.mpr hlt)⟩
    rw [Ph.at_some, if_pos rfl]
    exact ⟨k, rfl⟩

theorem Inv.resend {ep : Ep} {k e l m'} (h : Inv (ep, ⟨some (e.id, .dup k), []⟩)) (hf : look ep.resps e.id = some e)
    (hm : e.m.encoded.isSome → m' = e.m)
    (hl : l = [] ∧ (ep.sock = false ∨ ∀ o, e.m.encode ≠ .ok o) ∨
        ∃ o ok, e.m.encode = .ok o ∧ l = [.send (.cachedReply k) e.id e.m.remote o ok ep.now]) :
    Inv ({ ep with resps := setEntry ep.resps { e with m := m' }, busy := [], log := l ++ ep.log }, {}) := by
  obtain ⟨n1, t1, m, o, hli, hs, hr, hrs, ht, hlt, _⟩ := h.response hf
  have hm' := hm (by rw [hs.encoded]; rfl)
  subst hm'
  have : ∃ ok, l = [.send (.cachedReply k) e.id m.remote o ok ep.now] := by
    rcases hl with ⟨_, hn | hn⟩ | ⟨o', ok, ho, rfl⟩
    · rw [h.sockOn' hf] at hn; cases hn
    · exact absurd hs.encode (hn o)
    · rw [hs.encode] at ho; cases ho; rw [hs.remote]; exact ⟨ok, rfl⟩
  obtain ⟨ok, rfl⟩ := this
  refine h.update e.id [.send (.cachedReply k) e.id m.remote o ok ep.now] rfl (notAbout_one fun j ha => ha.symm)
    ?_ (Nat.le_refl _) ?_ h.nodupReqs ?_ rfl List.nodup_nil ?_
  · intro j hj
    refine ⟨rfl, ?_, rfl, ?_⟩
    · dsimp only; rw [look_setEntry, if_neg hj]
    · rw [Ph.at_some, if_neg (Ne.symm hj)]; rfl
  · refine ⟨.kept n1 t1 m o, hli.cons (.cached ..), ⟨hrs, rfl, hr, e, ?_, hs, ht, .inl rfl⟩,
      fun hle => absurd hle (Nat.not_le.mpr hlt)⟩
    dsimp only
    rw [look_setEntry, if_pos rfl, hf]; rfl
  · dsimp only; rw [setEntry_ids]; exact h.nodupResps
  · dsimp only; rw [setEntry_ne_nil]; exact h.sock

/-- The invariant is preserved by all steps. -/
theorem Inv.step {a b : Ep × Ph} (h : Inv a) (hs : Micro a b) : Inv b := by
  cases hs with
  | txQueued ep ph m o hs hn ho => exact h.txQueued hs hn ho
  | txLost ep ph m e l hc hl =>
    refine h.passOver (s := .over ep.n1 ep.t1 (ep.outgoing m) false) _ ?_ ?_ ⟨rfl, rfl, rfl, rfl⟩
    · intro j hj x hx
      simp only [List.cons_append, List.nil_append, List.mem_cons, List.mem_append, List.not_mem_nil, or_false] at hx
      rcases hx with rfl | rfl | hx | rfl
      · simp [About, Ne.symm hj]
      · simp [About, Ne.symm hj]
      · exact hl.about j hj x hx
      · simp [About, Ne.symm hj]
    · have hw : (ep.outgoing m).wantsCb = false := by rw [outgoing_wantsCb]; exact PMsg.not_wantsCb hc
      have := (h.fresh (Nat.le_refl ep.nextId)).1.refused (n1 := ep.n1) (t1 := ep.t1) hl
      simp only [List.cons_append, List.nil_append, List.append_assoc]
      rcases this with ⟨this, _⟩ | this
      · exact (this.cons (.loseNotSent _ _ _ hw)).cons (.fail _ _ _ e)
      · exact (this.cons (.loseRefused _ _ _ hw)).cons (.fail _ _ _ e)
  | txLostCb ep ph m l hr hc hl =>
    refine h.passCb (s := .reported ep.n1 ep.t1 (ep.outgoing m) false) _ ?_ ?_ ⟨rfl, rfl, rfl, rfl⟩
    · intro j hj x hx
      simp only [List.cons_append, List.nil_append, List.mem_cons, List.mem_append, List.not_mem_nil, or_false] at hx
      rcases hx with rfl | hx | rfl
      · simp [About, Ne.symm hj]
      · exact hl.about j hj x hx
      · simp [About, Ne.symm hj]
    · have hw : (ep.outgoing m).wantsCb = true := by rw [outgoing_wantsCb]; exact PMsg.yes_wantsCb hr hc
      have := (h.fresh (Nat.le_refl ep.nextId)).1.refused (n1 := ep.n1) (t1 := ep.t1) hl
      simp only [List.cons_append, List.nil_append, List.append_assoc]
      rcases this with ⟨this, _⟩ | this
      · exact this.cons (.reportNotSent _ _ _ _ hw)
      · exact this.cons (.reportRefused _ _ _ _ hw)
  | txLostEnd ep a t id b e hb =>
    refine h.popCb hb _ ?_ ?_
    · intro j hj x hx
      simp only [List.mem_cons, List.not_mem_nil, or_false] at hx
      rcases hx with rfl | rfl <;> simp [About, Ne.symm hj]
    · intro n1 t1 m hl
      exact ⟨_, (hl.cons (.loseReported _ _ _)).cons (.fail _ _ _ e), rfl, rfl, rfl, rfl⟩
  | txUnq ep ph m o hs hn ho hc =>
    refine h.passOver (s := .leaked ep.n1 ep.t1 (ep.outgoing m)) _ ?_ ?_ ⟨rfl, rfl, rfl, rfl⟩
    · intro j hj x hx
      simp only [List.mem_cons, List.not_mem_nil, or_false] at hx
      rcases hx with rfl | rfl | rfl <;> simp [About, Ne.symm hj]
    · have hw : (ep.outgoing m).wantsCb = false := by rw [outgoing_wantsCb]; exact PMsg.not_wantsCb hc
      exact (((h.fresh (Nat.le_refl ep.nextId)).1.cons (.pass _ _ _)).cons (.send _ _ _ _ _ ho)).cons
        (.noQueue _ _ _ _ hw hn)
  | txUnqCb ep ph m o hs hn ho hr hc =>
    refine h.passCb (s := .reported ep.n1 ep.t1 (ep.outgoing m) true) _ ?_ ?_ ⟨rfl, rfl, rfl, rfl⟩
    · intro j hj x hx
      simp only [List.mem_cons, List.not_mem_nil, or_false] at hx
      rcases hx with rfl | rfl | rfl <;> simp [About, Ne.symm hj]
    · have hw : (ep.outgoing m).wantsCb = true := by rw [outgoing_wantsCb]; exact PMsg.yes_wantsCb hr hc
      exact (((h.fresh (Nat.le_refl ep.nextId)).1.cons (.pass _ _ _)).cons (.send _ _ _ _ _ ho)).cons
        (.reportSent _ _ _ _ _ hw hn)
  | txUnqEnd ep a t id b hb =>
    refine h.popCb hb _ (notAbout_one fun j ha => ha.symm) ?_
    intro n1 t1 m hl
    exact ⟨_, hl.cons (.noQueueReported _ _ _), rfl, rfl, rfl, rfl⟩
  | number ep ph => exact h.quiet [] rfl (by simp) ⟨rfl, rfl⟩ (Nat.le_succ _) rfl rfl
  | heartbeat ep ph r l hl =>
    refine h.quiet l rfl ?_ ⟨rfl, rfl⟩ (Nat.le_succ _) rfl rfl
    rcases hl with rfl | ⟨o, ok, _, rfl⟩
    · simp
    · simp [About]
  | replied ep ph k m id o ok _ _ _ => exact h.quiet [_] rfl (by simp [About]) ⟨rfl, rfl⟩ (Nat.le_refl _) rfl rfl
  | quiet ep ph e hq =>
    refine h.quiet [e] rfl ?_ ⟨rfl, rfl⟩ (Nat.le_refl _) rfl rfl
    intro j x hx
    cases List.mem_singleton.mp hx
    exact hq.not_about j
  | invalidate ep ph fi => exact h.invalidate fi
  | setSeq ep ph s => exact h.quiet [] rfl (by simp) ⟨rfl, rfl⟩ (Nat.le_refl _) rfl rfl
  | setTimers ep ph n1 t1 kr => exact h.quiet [.config n1 t1 kr] rfl (by simp [About]) ⟨rfl, rfl⟩ (Nat.le_refl _) rfl rfl
  | close ep ph hc => exact h.close hc
  | peers ep ph ps t => exact h.quiet [] rfl (by simp) ⟨rfl, rfl⟩ (Nat.le_refl _) rfl rfl
  | bind ep ph ok h1 h2 =>
    exact ⟨h.nodupReqs, h.nodupResps, h.busy, h.nodupBusy, by simp [h1, h2], h.life⟩
  | advance ep ms => exact h.quiet [] rfl (by simp) ⟨rfl, rfl⟩ (Nat.le_refl _) rfl rfl
  | retrans ep e o hb hf hx hr hn hs ho => exact h.retrans hf hn ho
  | timeout ep e l hb hf hx hr hc hl => exact h.timeout hb hf hc hl
  | timeoutCb ep e e' l hb hf hx hr hc hl hid ht hm hd hep henc => exact h.timeoutCb hf hc hl hid henc
  | complete ep id p hb he hp => exact h.complete hp
  | expire ep e hb hf hx hr => exact h.expire hb hf
  | found ep k e rx hb hq hr hk => exact h.found (List.mem_of_find?_eq_some hq)
  | matched ep k id cb hb =>
    refine h.noteAt (by simp) (fun j ha => by simpa [About] using ha.symm) ?_
    rintro e n1 t1 m o s hs hl hr (⟨rfl, k', hp⟩ | ⟨k', _, hp⟩ | ⟨k', _, hp⟩ | ⟨k', _, hp⟩ | ⟨_, hp⟩) <;> cases hp
    exact ⟨_, .match_ _ _ _ _ _ k, ⟨rfl, rfl, hr, e, o, rfl, hs, rfl⟩, by simp⟩
  | called ep k id p hb hp =>
    refine h.noteAt (by rintro _ rfl; simp at hp) (fun j ha => ha.symm) ?_
    rintro e n1 t1 m o s hs hl hr (⟨rfl, k', rfl⟩ | ⟨k', rfl, rfl⟩ | ⟨k', _, rfl⟩ | ⟨k', _, rfl⟩ | ⟨_, rfl⟩) <;>
      simp at hp
    · obtain ⟨rfl, hc⟩ := hp
      exact ⟨_, .call _ _ _ _ _ _ _ hc, ⟨rfl, rfl, hr, e, o, rfl, hs, rfl⟩, by simp⟩
    · obtain ⟨rfl, hc⟩ := hp
      exact ⟨_, .callMatched _ _ _ _ _ hc, ⟨rfl, rfl, hr, e, o, rfl, hs, rfl⟩, by simp⟩
  | dispatched ep k id p hb hp =>
    refine h.noteAt (by rintro _ rfl; simp at hp) (fun j ha => by simpa [About] using ha.symm) ?_
    rintro e n1 t1 m o s hs hl hr (⟨rfl, k', rfl⟩ | ⟨k', rfl, rfl⟩ | ⟨k', rfl, rfl⟩ | ⟨k', _, rfl⟩ | ⟨_, rfl⟩) <;>
      simp at hp
    · obtain ⟨rfl, hc⟩ := hp
      exact ⟨_, .dispatch _ _ _ _ _ _ hc, ⟨rfl, rfl, hr, e, o, rfl, hs, rfl⟩, by simp⟩
    · obtain ⟨rfl, hc⟩ := hp
      exact ⟨_, .dispatchMatched _ _ _ _ hc, ⟨rfl, rfl, hr, e, o, rfl, hs, rfl⟩, by simp⟩
    · subst hp
      exact ⟨_, .dispatchCalled _ _ _ _, ⟨rfl, rfl, hr, e, o, rfl, hs, rfl⟩, by simp⟩
  | dup ep k e rx hb hq hr hk => exact h.dup (List.mem_of_find?_eq_some hq)
  | resend ep k e l m' hb hf hm henc hl => exact h.resend hf henc hl

theorem Inv.init {ep : Ep} (hr : ep.reqs = []) (hs : ep.resps = []) (hb : ep.busy = []) (hl : ∀ e ∈ ep.log, ∀ id, ¬ About id e) :
    Inv (ep, {}) := by
  refine ⟨by simp [hr], by simp [hs], by simp [hb], by simp [hb], by simp [hr, hs], fun id => ?_⟩
  refine ⟨.unseen, ?_, ?_, fun _ => rfl⟩
  · have := Life.append (.nil (id := id)) (l := ep.log) fun e he => hl e he id
    simpa using this
  · simp only [hr, hs, look_nil]
    exact ⟨rfl, rfl, rfl, rfl⟩

/-- After every history of a new endpoint. -/
theorem exec_inv {ops cfg n1 t1 keepResp time now} {ep : Ep}
    (h : exec ops (Ep.create cfg n1 t1 keepResp time now) = .ok ep) : Inv (ep, {}) :=
  exec_invariant (I := Inv) (fun _ _ h hs => h.step hs) h rfl (Inv.init rfl rfl rfl fun _ h _ => by cases List.mem_singleton.mp h; exact id)

end Verif
