/-
The endpoint (Endpoint.lean) as a transition system: every history is a sequence of small steps, in
which callbacks are interleaved.  A property of all histories then needs to be checked for each kind of
step only.  Everything here is derived from the functions in Endpoint.lean.
-/
import Verif.Endpoint
import Verif.IesLemmas

namespace Verif

/-- What is being done with a queued message while callbacks run. -/
inductive PhAt where
  /-- Response number `k` matches this request, which has a resp_cb() or not. -/
  | found (k : Nat) (cb : Bool)
  /-- ... and set_msg_ctx_cb() was called. -/
  | matched (k : Nat) (cb : Bool)
  /-- ... and resp_cb() was called. -/
  | called (k : Nat)
  /-- ... and rx_msg_cb() was called. -/
  | dispatched (k : Nat)
  /-- There was no response; resp_cb() was called. -/
  | gaveUp
  /-- Message number `k`, a duplicate of the request that this response answered, has arrived. -/
  | dup (k : Nat)
  deriving DecidableEq

/-- The messages that functions up the call stack are working on while a callback runs: a queued one at
most, and those for which osmo_pfcp_endpoint_tx() has called resp_cb(), innermost first (`true`: the
message will be freed). -/
structure Ph where
  at' : Option (Nat × PhAt) := none
  tx : List (Nat × Bool) := []

/-- Log events, latest first. -/
def Ep.logs (ep : Ep) (l : List Event) : Ep := { ep with log := l ++ ep.log }

/-- The message as osmo_pfcp_endpoint_tx() sends it. -/
def Ep.outgoing (ep : Ep) (m : PMsg) : PMsg :=
  ((if m.isResponse then m else { m with h := { m.h with seq := (nextSeqNr ep.seq).toNat } })).withNodeId ep.cfg.nodeId

/-- The endpoint after the first lines of osmo_pfcp_endpoint_tx(). -/
def Ep.begun (ep : Ep) (m : PMsg) : Ep :=
  if m.isResponse then { ep with nextId := ep.nextId + 1 }
  else { ep with nextId := ep.nextId + 1, seq := nextSeqNr ep.seq, draws := ep.draws + 1 }

/-- The queue entry for a message. -/
def Ep.entry (ep : Ep) (id : Nat) (m : PMsg) : QEntry :=
  { id, m, n1 := if m.isResponse then 0 else ep.n1
    timer := some (ep.now + if m.isResponse then ep.keepResp else ep.t1), draw := ep.draws, epoch := ep.resets }

/-- Add a queue entry. -/
def Ep.enqueue (ep : Ep) (e : QEntry) : Ep :=
  if e.m.isResponse then { ep with resps := ep.resps ++ [e] } else { ep with reqs := e :: ep.reqs }

/-- Events that are not about a message passed to osmo_pfcp_endpoint_tx(). -/
inductive Quiet : Event → Prop
  | direct (id o ok t) (m : PMsg) : m.encode = .ok o → Quiet (.send .direct id m.remote o ok t)
  | setCtx (k) : Quiet (.setCtx k none)
  | dispatch (k) : Quiet (.dispatch k none)
  | received (k m) : Quiet (.received k m)
  | invalidated (fi) : Quiet (.invalidated fi)
  | peer (fi e) : Quiet (.peer fi e)
  | configT26 (t) : Quiet (.configT26 t)

/-- What the log says about the failed attempt to send message `id`: nothing if the socket is closed or
the message cannot be encoded, or that sendto() failed. -/
def Refused (ep : Ep) (why : Why) (id : Nat) (m : PMsg) (l : List Event) : Prop :=
  l = [] ∧ (ep.sock = false ∨ ∀ o, m.encode ≠ .ok o) ∨
  ∃ o, m.encode = .ok o ∧ l = [.send why id m.remote o false ep.now]

/-- The small steps. -/
inductive Micro : Ep × Ph → Ep × Ph → Prop
  /-- osmo_pfcp_endpoint_tx(): sent and queued. -/
  | txQueued (ep : Ep) (ph m o) : ep.sock = true → ¬ (ep.n1 = 0 ∨ ep.t1 = 0) → (ep.outgoing m).encode = .ok o →
      Micro (ep, ph)
        ((((ep.begun m).enqueue ((ep.begun m).entry ep.nextId { ep.outgoing m with encoded := some o })).logs
          [.returned ep.nextId none, .send .tx ep.nextId (ep.outgoing m).remote o true ep.now,
           .passed ep.nextId ep.n1 ep.t1 (ep.outgoing m)]), ph)
  /-- osmo_pfcp_endpoint_tx() fails, there is no resp_cb(). -/
  | txLost (ep : Ep) (ph m e l) : ¬ (m.isResponse = false ∧ m.hasCb) →
      Refused ep .tx ep.nextId (ep.outgoing m) l →
      Micro (ep, ph)
        ((ep.begun m).logs ([.returned ep.nextId (some e), .freed ep.nextId] ++ l ++
          [.passed ep.nextId ep.n1 ep.t1 (ep.outgoing m)]), ph)
  /-- osmo_pfcp_endpoint_tx() fails, resp_cb() is called. -/
  | txLostCb (ep : Ep) (ph m l) : m.isResponse = false → m.hasCb →
      Refused ep .tx ep.nextId (ep.outgoing m) l →
      Micro (ep, ph)
        ({ (ep.begun m).logs ([.respCb ep.nextId none ep.now] ++ l ++
            [.passed ep.nextId ep.n1 ep.t1 (ep.outgoing m)]) with busy := ep.nextId :: ep.busy },
         { ph with tx := (ep.nextId, true) :: ph.tx })
  /-- ... and has returned. -/
  | txLostEnd (ep : Ep) (a t id b e) : ep.busy = id :: b →
      Micro (ep, ⟨a, (id, true) :: t⟩) ({ ep.logs [.returned id (some e), .freed id] with busy := b }, ⟨a, t⟩)
  /-- osmo_pfcp_endpoint_tx(): sent and not queued, there is no resp_cb(). -/
  | txUnq (ep : Ep) (ph m o) : ep.sock = true → (ep.n1 = 0 ∨ ep.t1 = 0) → (ep.outgoing m).encode = .ok o →
      ¬ (m.isResponse = false ∧ m.hasCb) →
      Micro (ep, ph)
        ((ep.begun m).logs
          [.returned ep.nextId none, .send .tx ep.nextId (ep.outgoing m).remote o true ep.now,
           .passed ep.nextId ep.n1 ep.t1 (ep.outgoing m)], ph)
  /-- osmo_pfcp_endpoint_tx(): sent and not queued, resp_cb() is called. -/
  | txUnqCb (ep : Ep) (ph m o) : ep.sock = true → (ep.n1 = 0 ∨ ep.t1 = 0) → (ep.outgoing m).encode = .ok o →
      m.isResponse = false → m.hasCb →
      Micro (ep, ph)
        ({ (ep.begun m).logs
            [.respCb ep.nextId none ep.now, .send .tx ep.nextId (ep.outgoing m).remote o true ep.now,
             .passed ep.nextId ep.n1 ep.t1 (ep.outgoing m)] with busy := ep.nextId :: ep.busy },
         { ph with tx := (ep.nextId, false) :: ph.tx })
  /-- ... and has returned. -/
  | txUnqEnd (ep : Ep) (a t id b) : ep.busy = id :: b →
      Micro (ep, ⟨a, (id, false) :: t⟩) ({ ep.logs [.returned id none] with busy := b }, ⟨a, t⟩)
  /-- A message that is not passed to osmo_pfcp_endpoint_tx() gets its number. -/
  | number (ep : Ep) (ph) : Micro (ep, ph) ({ ep with nextId := ep.nextId + 1 }, ph)
  /-- osmo_pfcp_endpoint_tx_heartbeat_req(). -/
  | heartbeat (ep : Ep) (ph r l) :
      (l = [] ∨ ∃ o ok, (ep.draw (heartbeatReq r ep.rts)).2.encode = .ok o ∧
        l = [.send .heartbeatReq ep.nextId r o ok ep.now]) →
      Micro (ep, ph)
        ({ ep with nextId := ep.nextId + 1, seq := nextSeqNr ep.seq, draws := ep.draws + 1, log := l ++ ep.log }, ph)
  /-- The answer to a Heartbeat Request. -/
  | replied (ep : Ep) (ph k m id o ok) : .received k m ∈ ep.log → m.h.type = 1 → (heartbeatResp m ep.rts).encode = .ok o →
      Micro (ep, ph) (ep.note (.send (.heartbeatReply k) id m.remote o ok ep.now), ph)
  /-- Something else is observed. -/
  | quiet (ep : Ep) (ph e) : Quiet e → Micro (ep, ph) (ep.note e, ph)
  | invalidate (ep : Ep) (ph fi) : Micro (ep, ph) (ep.dropCtx fi, ph)
  /-- Something about CP peers. -/
  | peers (ep : Ep) (ph ps t26 us) : Micro (ep, ph) ({ ep with peers := ps, t26 := t26, use := us }, ph)
  | setSeq (ep : Ep) (ph s) : Micro (ep, ph) ({ ep with seq := s, resets := ep.resets + 1 }, ph)
  | setTimers (ep : Ep) (ph n1 t1 kr) : Micro (ep, ph) ({ ep with n1 := n1, t1 := t1, keepResp := kr, log := .config n1 t1 kr :: ep.log }, ph)
  | close (ep : Ep) (ph) : ¬ ((ep.reqs ++ ep.resps).any fun e => ep.busy.contains e.id) = true → Micro (ep, ph) (ep.closed, ph)
  | bind (ep : Ep) (ph ok) : ep.reqs = [] → ep.resps = [] → Micro (ep, ph) ({ ep with sock := ep.cfg.hasRx && ok }, ph)
  | advance (ep : Ep) (ms) : Micro (ep, {}) ({ ep with now := ep.now + ms }, {})
  /-- Retransmission of a request. -/
  | retrans (ep : Ep) (e o) : ep.busy = [] → ep.reqs.find? (fun x => x.id = e.id) = some e → e.expired ep.now = true →
      e.m.isResponse = false → e.n1 ≠ 0 → ep.sock = true → e.m.encode = .ok o →
      Micro (ep, {})
        ({ ep with reqs := setEntry ep.reqs
                    { e with m := { e.m with encoded := some o }, n1 := e.n1 - 1, timer := some (ep.now + ep.t1) }
                   log := .send .retrans e.id e.m.remote o true ep.now :: ep.log }, {})
  /-- No retransmission is left, or it cannot be sent; there is no resp_cb(). -/
  | timeout (ep : Ep) (e l) : ep.busy = [] → ep.reqs.find? (fun x => x.id = e.id) = some e →
      e.expired ep.now = true → e.m.isResponse = false → e.m.hasCb = false →
      (e.n1 = 0 ∧ l = [] ∨ e.n1 ≠ 0 ∧ Refused ep .retrans e.id e.m l) →
      Micro (ep, {})
        ({ ep with reqs := ep.reqs.filter fun x => x.id ≠ e.id
                   resps := ep.resps.filter fun x => x.id ≠ e.id
                   log := .freed e.id :: l ++ ep.log }, {})
  /-- No retransmission is left, or it cannot be sent; resp_cb() is called. -/
  | timeoutCb (ep : Ep) (e e' l) : ep.busy = [] → ep.reqs.find? (fun x => x.id = e.id) = some e →
      e.expired ep.now = true → e.m.isResponse = false → e.m.hasCb = true →
      (e.n1 = 0 ∧ l = [] ∨ e.n1 ≠ 0 ∧ Refused ep .retrans e.id e.m l) →
      e'.id = e.id → e'.timer = none → (∃ enc, e'.m = { e.m with encoded := enc }) → e'.draw = e.draw → e'.epoch = e.epoch →
      (e.m.encoded.isSome → e'.m = e.m) →
      Micro (ep, {})
        ({ ep with reqs := setEntry ep.reqs e', busy := [e.id]
                   log := .respCb e.id none ep.now :: l ++ ep.log },
         { at' := some (e.id, .gaveUp) })
  /-- The request is done with: its queue entry is removed and it is freed. -/
  | complete (ep : Ep) (id p) : ep.busy = [id] → (∃ e ∈ ep.reqs, e.id = id) →
      (p = .gaveUp ∨ (∃ k, p = .called k) ∨ ∃ k, p = .dispatched k) →
      Micro (ep, { at' := some (id, p) })
        ({ ep with reqs := ep.reqs.filter fun x => x.id ≠ id
                   resps := ep.resps.filter fun x => x.id ≠ id
                   busy := []
                   log := .freed id :: ep.log }, {})
  /-- A response need not be kept any longer. -/
  | expire (ep : Ep) (e) : ep.busy = [] → ep.resps.find? (fun x => x.id = e.id) = some e →
      e.expired ep.now = true → e.m.isResponse = true →
      Micro (ep, {})
        ({ ep with reqs := ep.reqs.filter fun x => x.id ≠ e.id
                   resps := ep.resps.filter fun x => x.id ≠ e.id
                   log := .freed e.id :: ep.log }, {})
  /-- A response matches a request. -/
  | found (ep : Ep) (k e) (rx : PMsg) : ep.busy = [] → queueFind ep.reqs rx = some e → rx.isResponse = true →
      .received k rx ∈ ep.log →
      Micro (ep, {}) ({ ep with busy := [e.id] }, { at' := some (e.id, .found k e.m.hasCb) })
  | matched (ep : Ep) (k id cb) : ep.busy = [id] →
      Micro (ep, { at' := some (id, .found k cb) }) (ep.note (.setCtx k (some id)), { at' := some (id, .matched k cb) })
  /-- resp_cb() gets the response. -/
  | called (ep : Ep) (k id p) : ep.busy = [id] → p = .found k true ∨ p = .matched k true →
      Micro (ep, { at' := some (id, p) }) (ep.note (.respCb id (some k) ep.now), { at' := some (id, .called k) })
  /-- rx_msg_cb() gets the response. -/
  | dispatched (ep : Ep) (k id p) : ep.busy = [id] →
      (p = .called k ∨ p = .found k false ∨ p = .matched k false) →
      Micro (ep, { at' := some (id, p) }) (ep.note (.dispatch k (some id)), { at' := some (id, .dispatched k) })
  /-- A duplicate of an answered request arrives. -/
  | dup (ep : Ep) (k e) (rx : PMsg) : ep.busy = [] → queueFind ep.resps rx = some e → rx.isResponse = false →
      .received k rx ∈ ep.log →
      Micro (ep, {}) ({ ep with busy := [e.id] }, { at' := some (e.id, .dup k) })
  /-- The cached response is sent again. -/
  | resend (ep : Ep) (k e l m') : ep.busy = [e.id] → ep.resps.find? (fun x => x.id = e.id) = some e →
      (∃ enc, m' = { e.m with encoded := enc }) → (e.m.encoded.isSome → m' = e.m) →
      (l = [] ∧ (ep.sock = false ∨ ∀ o, e.m.encode ≠ .ok o) ∨
        ∃ o ok, e.m.encode = .ok o ∧ l = [.send (.cachedReply k) e.id e.m.remote o ok ep.now]) →
      Micro (ep, { at' := some (e.id, .dup k) })
        ({ ep with resps := setEntry ep.resps { e with m := m' }, busy := [], log := l ++ ep.log }, {})

/-- Any number of small steps. -/
inductive Steps : Ep × Ph → Ep × Ph → Prop
  | refl (a) : Steps a a
  | snoc {a b c} : Steps a b → Micro b c → Steps a c

theorem Steps.one {a b} (h : Micro a b) : Steps a b := .snoc (.refl a) h

theorem Steps.trans {a b c} (h : Steps a b) (h' : Steps b c) : Steps a c := by
  induction h' with
  | refl => exact h
  | snoc _ m ih => exact .snoc ih m

/-- From `ep` to `ep'` in small steps, whatever is going on up the call stack. -/
def Goes (ep ep' : Ep) : Prop := ep'.busy = ep.busy ∧ ∀ ph, Steps (ep, ph) (ep', ph)

theorem Goes.refl (ep : Ep) : Goes ep ep := ⟨rfl, fun _ => .refl _⟩

theorem Goes.trans {a b c : Ep} (h : Goes a b) (h' : Goes b c) : Goes a c :=
  ⟨h'.1.trans h.1, fun ph => (h.2 ph).trans (h'.2 ph)⟩

theorem Goes.one {a b : Ep} (hb : b.busy = a.busy) (h : ∀ ph, Micro (a, ph) (b, ph)) : Goes a b :=
  ⟨hb, fun ph => .one (h ph)⟩

/-! ### CP peers -/

/-- At most the CP peers (and T26) and the use counts differ. -/
def PeersOnly (ep ep' : Ep) : Prop := ∃ ps t26 us, ep' = { ep with peers := ps, t26 := t26, use := us }

theorem PeersOnly.refl (ep : Ep) : PeersOnly ep ep := ⟨_, _, _, rfl⟩
theorem PeersOnly.trans {a b c : Ep} (h : PeersOnly a b) (h' : PeersOnly b c) : PeersOnly a c := by
  obtain ⟨_, _, _, rfl⟩ := h
  obtain ⟨_, _, _, rfl⟩ := h'
  exact ⟨_, _, _, rfl⟩
theorem PeersOnly.goes {a b : Ep} (h : PeersOnly a b) : Goes a b := by
  obtain ⟨ps, t, us, rfl⟩ := h
  exact Goes.one rfl fun ph => .peers a ph ps t us

theorem takeUses_only (ep : Ep) (us) : PeersOnly ep (ep.takeUses us) := ⟨_, _, _, rfl⟩

theorem releaseUses_only : ∀ {us} {ep ep' : Ep}, ep.releaseUses us = .ok ep' → PeersOnly ep ep'
  | [], ep, ep', h => by cases h; exact .refl _
  | u :: us, ep, ep', h => by
    unfold Ep.releaseUses at h
    split at h
    · cases h
    · exact PeersOnly.trans (b := { ep with use := fun x => if x = u then ep.use x - 1 else ep.use x }) ⟨_, _, _, rfl⟩
        (releaseUses_only h)

/-- At most the CP peers (and T26), the use counts, and what is known of the peers differ. -/
theorem Goes.noted {a b : Ep} (h : PeersOnly a b) (fi e) : Goes a (b.note (.peer fi e)) :=
  h.goes.trans (Goes.one rfl fun ph => .quiet _ ph _ (.peer fi e))

theorem peerChg_goes (ep : Ep) (fi s) : Goes ep (ep.peerChg fi s) := by
  unfold Ep.peerChg
  split
  · exact .refl _
  · split
    · exact .noted ⟨_, _, _, rfl⟩ _ _
    · exact .refl _

theorem newPeer_only (ep : Ep) (fi r) : PeersOnly ep (ep.newPeer fi r) := by
  unfold Ep.newPeer
  split
  · exact .refl _
  · exact ⟨_, _, _, rfl⟩

theorem setAssocCb_goes (ep : Ep) (fi b) : Goes ep (ep.setAssocCb fi b) := by
  unfold Ep.setAssocCb
  split
  · exact .refl _
  · exact .noted ⟨_, _, _, rfl⟩ _ _

/-- What a callback may do. -/
def Calls (f : Ep → Res Ep) : Prop := ∀ ep ep', f ep = .ok ep' → Goes ep ep'

theorem assocResp_goes {ctx resp cb} (hcb : Calls cb) : Calls fun ep => ep.assocResp ctx resp cb := by
  intro ep ep' h
  dsimp only at h
  unfold Ep.assocResp at h
  cases hf : ctx.peerFi with
  | none => rw [hf] at h; cases h
  | some fi =>
    rw [hf] at h
    dsimp only at h
    cases hp : ep.peer? fi with
    | none => rw [hp] at h; cases h
    | some p =>
      rw [hp] at h
      dsimp only at h
      cases resp with
      | none => cases h; exact peerChg_goes _ _ _
      | some m =>
        dsimp only at h
        split at h
        · cases h; exact peerChg_goes _ _ _
        split at h
        · cases h; exact .refl _
        refine (peerChg_goes ep fi .associated).trans ?_
        split at h
        · exact Goes.trans (b := (ep.peerChg fi .associated).note (.peer fi (.assocCb true)))
            (Goes.one rfl fun ph => .quiet _ ph _ (.peer fi _)) (hcb _ _ h)
        · cases h; exact .refl _

theorem ok_calls : Calls .ok := by intro ep ep' h; cases h; exact .refl _

/-! ### Transmission -/

theorem sendMsg_ok {ep : Ep} {why id m io r} (h : ep.sendMsg why id m io = .ok r) :
    (∃ o, m.encode = .ok o ∧ ep.sock = true ∧ io = true ∧
      r = (ep.note (.send why id m.remote o true ep.now), { m with encoded := some o }, none)) ∨
    ∃ l e enc, Refused ep why id m l ∧
      (m.encoded.isSome → enc = m.encoded) ∧
      r = (ep.logs l, { m with encoded := enc }, some e) := by
  unfold Ep.sendMsg at h
  have henc : ∀ o, m.encode = .ok o → m.encoded.isSome → some o = m.encoded := by
    intro o ho hs
    unfold PMsg.encode at ho
    cases hm : m.encoded with
    | none => simp [hm] at hs
    | some x => simp [hm] at ho; rw [ho]
  cases hm : m.encode with
  | ok o =>
    rw [hm] at h
    dsimp only at h
    by_cases hs : ep.sock = true
    · rw [if_pos hs] at h
      cases h
      cases io
      · exact .inr ⟨[.send why id m.remote o false ep.now], .EIO, some o, .inr ⟨o, hm, rfl⟩, henc o hm, rfl⟩
      · exact .inl ⟨o, rfl, hs, rfl, rfl⟩
    · rw [if_neg hs] at h
      cases h
      exact .inr ⟨[], .EIO, some o, .inl ⟨rfl, .inl (by simpa using hs)⟩, henc o hm, rfl⟩
  | err e s =>
    rw [hm] at h
    cases h
    exact .inr ⟨[], e, m.encoded, .inl ⟨rfl, .inr fun o => by rw [hm]; nofun⟩, fun _ => rfl, rfl⟩
  | abort => rw [hm] at h; cases h
  | ub => rw [hm] at h; cases h
  | diverge => rw [hm] at h; cases h

@[simp] theorem withNodeId_isResponse (m : PMsg) (n) : (m.withNodeId n).isResponse = m.isResponse := by
  unfold PMsg.withNodeId; split <;> rfl
@[simp] theorem withNodeId_ctx (m : PMsg) (n) : (m.withNodeId n).ctx = m.ctx := by
  unfold PMsg.withNodeId; split <;> rfl
@[simp] theorem outgoing_isResponse (ep : Ep) (m : PMsg) : (ep.outgoing m).isResponse = m.isResponse := by
  unfold Ep.outgoing; split <;> simp
@[simp] theorem outgoing_ctx (ep : Ep) (m : PMsg) : (ep.outgoing m).ctx = m.ctx := by
  unfold Ep.outgoing; split <;> simp
@[simp] theorem outgoing_hasCb (ep : Ep) (m : PMsg) : (ep.outgoing m).hasCb = m.hasCb := by
  simp [PMsg.hasCb]
@[simp] theorem begun_busy (ep : Ep) (m : PMsg) : (ep.begun m).busy = ep.busy := by
  unfold Ep.begun; split <;> rfl
@[simp] theorem begun_cfg (ep : Ep) (m : PMsg) : (ep.begun m).cfg = ep.cfg := by
  unfold Ep.begun; split <;> rfl
@[simp] theorem begun_n1 (ep : Ep) (m : PMsg) : (ep.begun m).n1 = ep.n1 := by
  unfold Ep.begun; split <;> rfl
@[simp] theorem begun_t1 (ep : Ep) (m : PMsg) : (ep.begun m).t1 = ep.t1 := by
  unfold Ep.begun; split <;> rfl
@[simp] theorem begun_now (ep : Ep) (m : PMsg) : (ep.begun m).now = ep.now := by
  unfold Ep.begun; split <;> rfl
@[simp] theorem begun_sock (ep : Ep) (m : PMsg) : (ep.begun m).sock = ep.sock := by
  unfold Ep.begun; split <;> rfl
@[simp] theorem begun_log (ep : Ep) (m : PMsg) : (ep.begun m).log = ep.log := by
  unfold Ep.begun; split <;> rfl
@[simp] theorem begun_reqs (ep : Ep) (m : PMsg) : (ep.begun m).reqs = ep.reqs := by
  unfold Ep.begun; split <;> rfl
@[simp] theorem begun_resps (ep : Ep) (m : PMsg) : (ep.begun m).resps = ep.resps := by
  unfold Ep.begun; split <;> rfl
@[simp] theorem begun_nextId (ep : Ep) (m : PMsg) : (ep.begun m).nextId = ep.nextId + 1 := by
  unfold Ep.begun; split <;> rfl
@[simp] theorem begun_resets (ep : Ep) (m : PMsg) : (ep.begun m).resets = ep.resets := by
  unfold Ep.begun; split <;> rfl
@[simp] theorem begun_rts (ep : Ep) (m : PMsg) : (ep.begun m).rts = ep.rts := by
  unfold Ep.begun; split <;> rfl
@[simp] theorem begun_keepResp (ep : Ep) (m : PMsg) : (ep.begun m).keepResp = ep.keepResp := by
  unfold Ep.begun; split <;> rfl

/-- osmo_pfcp_endpoint_tx() in other words. -/
theorem tx_eq (ep : Ep) (m io cb) :
    ep.tx m io cb =
      (((ep.begun m).note (.passed ep.nextId ep.n1 ep.t1 (ep.outgoing m))).sendMsg .tx ep.nextId (ep.outgoing m) io).bind
        fun (ep1, m1, rc) =>
        match rc with
        | some e =>
          (ep1.failCb ep.nextId m1 cb).bind fun ep2 =>
          (ep2.releaseUses m1.ctx.uses).bind fun ep3 =>
            .ok ((ep3.note (.freed ep.nextId)).note (.returned ep.nextId (some e)))
        | none => (ep1.queueAdd ep.nextId m1 cb).bind fun ep2 => .ok (ep2.note (.returned ep.nextId none)) := by
  unfold Ep.tx Ep.begun Ep.outgoing
  by_cases hr : m.isResponse = true
  · simp only [hr, if_true]
    rfl
  · have hr' : m.isResponse = false := by simpa using hr
    simp only [hr', Bool.false_eq_true, if_false, Ep.draw]
    rfl

theorem using_ok {ep ep' : Ep} {id f} (hf : Calls f) (h : ep.using id f = .ok ep') :
    ∃ ep1, Goes { ep with busy := id :: ep.busy } ep1 ∧ ep' = { ep1 with busy := ep.busy } := by
  obtain ⟨ep1, h1, h2⟩ := Res.bind_eq_ok h
  cases h2
  exact ⟨ep1, hf _ _ h1, rfl⟩

theorem tx_goes {ep ep' : Ep} {m io cb} (hcb : Calls cb) (h : ep.tx m io cb = .ok ep') : Goes ep ep' := by
  rw [tx_eq] at h
  obtain ⟨⟨ep1, m1, rc⟩, h1, h⟩ := Res.bind_eq_ok h
  rcases sendMsg_ok h1 with ⟨o, ho, hs, -, hr⟩ | ⟨l, e, enc, hl, -, hr⟩
  · cases hr
    dsimp only at h
    have hs' : ep.sock = true := by simpa [Ep.note] using hs
    unfold Ep.queueAdd at h
    simp only [Ep.note, begun_n1, begun_t1, outgoing_isResponse] at h
    by_cases hn : ep.n1 = 0 ∨ ep.t1 = 0
    · rw [if_pos hn] at h
      unfold Ep.failCb at h
      by_cases hc : m.isResponse = false ∧ m.hasCb = true
      · rw [if_pos (by simpa [PMsg.hasCb] using hc)] at h
        obtain ⟨ep2, h2, h⟩ := Res.bind_eq_ok h
        cases h
        obtain ⟨ep3, h3, rfl⟩ := using_ok hcb h2
        have hb3 := h3.1
        simp only [Ep.note, begun_busy] at hb3
        refine ⟨by simp [Ep.note], fun ph => ?_⟩
        refine Steps.trans (.one (Micro.txUnqCb ep ph m o hs' hn ho hc.1 hc.2)) ?_
        have h4 := h3.2 { ph with tx := (ep.nextId, false) :: ph.tx }
        have h5 := Steps.one (Micro.txUnqEnd ep3 ph.at' ph.tx ep.nextId ep.busy hb3)
        simp only [Ep.note, Ep.logs, begun_n1, begun_t1, begun_now, begun_busy, begun_log, List.cons_append,
          List.nil_append] at h4 h5 ⊢
        exact h4.trans h5
      · rw [if_neg (by simpa [PMsg.hasCb] using hc)] at h
        cases h
        refine Goes.one (by simp) fun ph => ?_
        have := Micro.txUnq ep ph m o hs' hn ho hc
        simpa [Ep.note, Ep.logs] using this
    · rw [if_neg hn] at h
      have := fun ph => Micro.txQueued ep ph m o hs' hn ho
      by_cases hr : m.isResponse = true
      · rw [if_pos hr] at h
        cases h
        refine Goes.one (by simp) fun ph => ?_
        have := this ph
        simpa [Ep.note, Ep.logs, Ep.enqueue, Ep.entry, hr] using this
      · rw [if_neg hr] at h
        cases h
        refine Goes.one (by simp) fun ph => ?_
        have := this ph
        simpa [Ep.note, Ep.logs, Ep.enqueue, Ep.entry, hr] using this
  · cases hr
    dsimp only at h
    have hl' : Refused ep .tx ep.nextId (ep.outgoing m) l := by
      simpa [Refused, Ep.note] using hl
    unfold Ep.failCb at h
    simp only [outgoing_isResponse] at h
    by_cases hc : m.isResponse = false ∧ m.hasCb = true
    · rw [if_pos (by simpa [PMsg.hasCb] using hc)] at h
      obtain ⟨ep2, h2, h⟩ := Res.bind_eq_ok h
      obtain ⟨ep4, h4, h⟩ := Res.bind_eq_ok h
      cases h
      obtain ⟨ep3, h3, rfl⟩ := using_ok hcb h2
      obtain ⟨ps, t, us, rfl⟩ := releaseUses_only h4
      have hb3 := h3.1
      simp only [Ep.note, Ep.logs, begun_busy] at hb3
      refine ⟨by simp [Ep.note, Ep.logs], fun ph => ?_⟩
      refine Steps.trans (.one (Micro.txLostCb ep ph m l hc.1 hc.2 hl')) ?_
      have h4 := h3.2 { ph with tx := (ep.nextId, true) :: ph.tx }
      have h5 := Steps.one (Micro.txLostEnd ep3 ph.at' ph.tx ep.nextId ep.busy e hb3)
      have h6 := Steps.one (Micro.peers { ep3.logs [.returned ep.nextId (some e), .freed ep.nextId] with busy := ep.busy }
        ⟨ph.at', ph.tx⟩ ps t us)
      simp only [Ep.note, Ep.logs, begun_n1, begun_t1, begun_now, begun_busy, begun_log, List.cons_append,
        List.nil_append, List.append_assoc] at h4 h5 h6 ⊢
      exact (h4.trans h5).trans h6
    · rw [if_neg (by simpa [PMsg.hasCb] using hc)] at h
      simp only [Res.bind] at h
      obtain ⟨ep4, h4, h⟩ := Res.bind_eq_ok h
      cases h
      obtain ⟨ps, t, us, rfl⟩ := releaseUses_only h4
      refine Goes.trans (b := (ep.begun m).logs ([.returned ep.nextId (some e), .freed ep.nextId] ++ l ++
          [.passed ep.nextId ep.n1 ep.t1 (ep.outgoing m)])) ?_ (PeersOnly.goes ⟨ps, t, us, ?_⟩)
      · exact Goes.one (by simp [Ep.logs]) fun ph => Micro.txLost ep ph m e l hc hl'
      · simp [Ep.note, Ep.logs]

/-- What a send changes: nothing, or there is one more event. -/
theorem sendMsg_logs {ep : Ep} {why id m io r} (h : ep.sendMsg why id m io = .ok r) :
    r.1 = ep ∨ ∃ o ok, m.encode = .ok o ∧ r.1 = ep.note (.send why id m.remote o ok ep.now) := by
  rcases sendMsg_ok h with ⟨o, ho, _, _, rfl⟩ | ⟨l, e, enc, hl, -, rfl⟩
  · exact .inr ⟨o, true, ho, rfl⟩
  · rcases hl with ⟨rfl, _⟩ | ⟨o, ho, rfl⟩
    · exact .inl rfl
    · exact .inr ⟨o, false, ho, rfl⟩

theorem quiet_send_goes {ep : Ep} {why id m io r} (hq : ∀ o ok t, m.encode = .ok o → Quiet (.send why id m.remote o ok t))
    (h : ep.sendMsg why id m io = .ok r) : Goes ep r.1 := by
  rcases sendMsg_logs h with h | ⟨o, ok, ho, h⟩ <;> rw [h]
  · exact Goes.refl _
  · exact Goes.one rfl fun ph => .quiet _ _ _ (hq _ _ _ ho)

theorem txHeartbeat_goes {ep ep' : Ep} {remote io} (h : ep.txHeartbeat remote io = .ok ep') : Goes ep ep' := by
  obtain ⟨⟨ep1, m1, rc⟩, h1, h⟩ := Res.bind_eq_ok h
  cases h
  rcases sendMsg_logs h1 with h | ⟨o, ok, ho, h⟩ <;> dsimp only at h <;> rw [h]
  · exact Goes.one rfl fun ph => .heartbeat ep ph remote [] (.inl rfl)
  · exact Goes.one rfl fun ph => .heartbeat ep ph remote [.send .heartbeatReq ep.nextId remote o ok ep.now] (.inr ⟨o, ok, ho, rfl⟩)

theorem txDirect_goes {ep ep' : Ep} {m io} (h : ep.txDirect m io = .ok ep') : Goes ep ep' := by
  obtain ⟨⟨ep1, m1, rc⟩, h1, h⟩ := Res.bind_eq_ok h
  cases h
  exact Goes.trans (b := { ep with nextId := ep.nextId + 1 }) (Goes.one rfl fun ph => .number ep ph) (quiet_send_goes (fun _ _ _ ho => .direct _ _ _ _ _ ho) h1)

theorem close_ok {ep ep' : Ep} (h : ep.close = .ok ep') :
    ¬ ((ep.reqs ++ ep.resps).any fun e => ep.busy.contains e.id) = true ∧
    ∃ ps t26 us, ep' = ({ ep with peers := ps, t26 := t26, use := us } : Ep).closed := by
  unfold Ep.close at h
  split at h
  · cases h
  · rename_i hn
    obtain ⟨ep1, h1, h⟩ := Res.bind_eq_ok h
    cases h
    obtain ⟨ps, t, us, rfl⟩ := releaseUses_only h1
    exact ⟨hn, ps, t, us, rfl⟩

theorem close_goes {ep ep' : Ep} (h : ep.close = .ok ep') : Goes ep ep' := by
  obtain ⟨hn, ps, t, us, rfl⟩ := close_ok h
  exact Goes.trans (b := { ep with peers := ps, t26 := t, use := us }) (Goes.one rfl fun ph => .peers ep ph ps t us)
    (Goes.one rfl fun ph => .close _ ph hn)

theorem close_queues {ep ep' : Ep} (h : ep.close = .ok ep') : ep'.reqs = [] ∧ ep'.resps = [] := by
  obtain ⟨hn, ps, t, us, rfl⟩ := close_ok h
  exact ⟨rfl, rfl⟩

theorem bind_goes {ep ep' : Ep} {ok} (h : ep.bind ok = .ok ep') : Goes ep ep' := by
  obtain ⟨ep1, h1, h⟩ := Res.bind_eq_ok h
  cases h
  exact (close_goes h1).trans (Goes.one rfl fun ph => .bind ep1 ph ok (close_queues h1).1 (close_queues h1).2)

theorem assocStart_goes {ep ep' : Ep} {fi p io} (h : ep.assocStart fi p io = .ok ep') : Goes ep ep' := by
  unfold Ep.assocStart at h
  split at h
  · cases h; exact .refl _
  dsimp only at h
  obtain ⟨ep1, h1, h⟩ := Res.bind_eq_ok h
  cases h
  have g := ((peerChg_goes ep fi .waitAssoc).trans (takeUses_only _ _).goes).trans (tx_goes (assocResp_goes ok_calls) h1)
  split
  · exact g.trans (peerChg_goes _ _ _)
  · exact g

theorem associate_goes {ep ep' : Ep} {fi io} (h : ep.associate fi io = .ok ep') : Goes ep ep' := by
  unfold Ep.associate at h
  split at h
  · cases h; exact .refl _
  split at h
  · exact assocStart_goes h
  · cases h; exact .refl _

theorem peerTimer_goes {ep ep' : Ep} {fi io} (h : ep.peerTimer fi io = .ok ep') : Goes ep ep' := by
  unfold Ep.peerTimer at h
  split at h
  · cases h; exact .refl _
  rename_i p _
  split at h
  · cases h; exact .refl _
  dsimp only at h
  refine Goes.trans (b := { ep with peers := setPeer ep.peers { p with timer := none } })
    (PeersOnly.goes ⟨_, _, _, rfl⟩) ?_
  split at h
  · exact assocStart_goes h
  · cases h; exact PeersOnly.goes ⟨_, _, _, rfl⟩

/-- Whatever the application does is a sequence of small steps. -/
theorem run_goes (a : App) : Calls a.run := by
  induction a with
  | done => intro ep ep' h; cases h; exact Goes.refl _
  | tx m io f r hf hr =>
    intro ep ep' h
    unfold App.run at h
    split at h
    · cases h
    obtain ⟨ep1, h1, h⟩ := Res.bind_eq_ok h
    exact ((takeUses_only _ _).goes.trans (tx_goes hf h1)).trans (hr _ _ h)
  | txData m io r hr =>
    intro ep ep' h
    obtain ⟨ep1, h1, h⟩ := Res.bind_eq_ok h
    exact (txDirect_goes h1).trans (hr _ _ h)
  | heartbeat remote io r hr =>
    intro ep ep' h
    obtain ⟨ep1, h1, h⟩ := Res.bind_eq_ok h
    exact (txHeartbeat_goes h1).trans (hr _ _ h)
  | invalidate fi r hr => 
    intro ep ep' h
    exact (Goes.trans (a := ep) (b := ep.dropCtx fi) (Goes.one rfl fun ph => .invalidate ep ph fi)
      (Goes.one (b := ep.invalidate fi) rfl fun ph => .quiet _ ph _ (.invalidated fi))).trans (hr _ _ h)
  | setSeq s r hr => intro ep ep' h; exact Goes.trans (b := { ep with seq := s, resets := ep.resets + 1 }) (Goes.one rfl fun ph => .setSeq ep ph s) (hr _ _ h)
  | setTimers n1 t1 kr r hr =>
    intro ep ep' h; exact Goes.trans (b := { ep with n1 := n1, t1 := t1, keepResp := kr, log := .config n1 t1 kr :: ep.log }) (Goes.one rfl fun ph => .setTimers ep ph n1 t1 kr) (hr _ _ h)
  | close r hr =>
    intro ep ep' h
    obtain ⟨ep1, h1, h⟩ := Res.bind_eq_ok h
    exact (close_goes h1).trans (hr _ _ h)
  | bind ok r hr =>
    intro ep ep' h
    obtain ⟨ep1, h1, h⟩ := Res.bind_eq_ok h
    exact (bind_goes h1).trans (hr _ _ h)
  | setT26 t r hr =>
    intro ep ep' h
    have h2 := hr (Ep.note { ep with t26 := t } (.configT26 t)) ep' h
    refine Goes.trans ?_ h2
    exact Goes.trans (b := { ep with t26 := t }) (PeersOnly.goes ⟨_, _, _, rfl⟩)
      (Goes.one rfl fun ph => .quiet _ ph _ (.configT26 t))
  | newPeer fi remote r hr => intro ep ep' h; exact (newPeer_only ep fi remote).goes.trans (hr _ _ h)
  | setAssocCb fi b r hr => intro ep ep' h; exact (setAssocCb_goes ep fi b).trans (hr _ _ h)
  | associate fi io r hr =>
    intro ep ep' h
    obtain ⟨ep1, h1, h⟩ := Res.bind_eq_ok h
    exact (associate_goes h1).trans (hr _ _ h)

/-! ### Timers -/

theorem find_id {q : List QEntry} {id e} (h : q.find? (fun x => x.id = id) = some e) : e ∈ q ∧ e.id = id :=
  ⟨List.mem_of_find?_eq_some h, by simpa using List.find?_some h⟩

theorem setEntry_setEntry (q : List QEntry) (a b : QEntry) (h : a.id = b.id) :
    setEntry (setEntry q a) b = setEntry q b := by
  unfold setEntry
  rw [List.map_map]
  apply List.map_congr_left
  intro x _
  by_cases hx : x.id = b.id <;> simp [h, hx]

theorem filter_setEntry (q : List QEntry) (a : QEntry) :
    (setEntry q a).filter (fun x => x.id ≠ a.id) = q.filter fun x => x.id ≠ a.id := by
  unfold setEntry
  induction q with
  | nil => rfl
  | cons x l ih =>
    by_cases hx : x.id = a.id
    · simpa [hx] using ih
    · simpa [hx] using ih

/-- Between top-level events. -/
def Tops (ep ep' : Ep) : Prop := ep.busy = [] → ep'.busy = [] ∧ Steps (ep, {}) (ep', {})

theorem Tops.refl (ep : Ep) : Tops ep ep := fun h => ⟨h, .refl _⟩
theorem Tops.trans {a b c : Ep} (h : Tops a b) (h' : Tops b c) : Tops a c := fun hb =>
  have h1 := h hb
  have h2 := h' h1.1
  ⟨h2.1, h1.2.trans h2.2⟩
theorem Goes.tops {a b : Ep} (h : Goes a b) : Tops a b := fun hb => ⟨h.1.trans hb, h.2 {}⟩

/-- osmo_pfcp_queue_del() in other words. -/
theorem queueDel_ok {ep ep' : Ep} {id} (h : ep.queueDel id = .ok ep') : ∃ ps t26 us,
    ep' = { ep with reqs := ep.reqs.filter fun e => e.id ≠ id
                    resps := ep.resps.filter fun e => e.id ≠ id
                    log := .freed id :: ep.log, peers := ps, t26 := t26, use := us } := by
  obtain ⟨ep1, h1, h⟩ := Res.bind_eq_ok h
  cases h
  obtain ⟨ps, t, us, rfl⟩ := releaseUses_only h1
  exact ⟨ps, t, us, rfl⟩

theorem Steps.peers {a : Ep × Ph} {ep : Ep} {ph} (h : Steps a (ep, ph)) (ps t26 us) :
    Steps a ({ ep with peers := ps, t26 := t26, use := us }, ph) := h.snoc (.peers ep ph ps t26 us)

theorem reqTimer_tops {ep ep' : Ep} {id io cb} (hcb : Calls cb) (h : ep.reqTimer id io cb = .ok ep') : Tops ep ep' := by
  intro hb
  unfold Ep.reqTimer at h
  cases hf : ep.reqs.find? (fun e => e.id = id) with
  | none => rw [hf] at h; cases h; exact ⟨hb, .refl _⟩
  | some e =>
    rw [hf] at h
    dsimp only at h
    obtain ⟨he, rfl⟩ := find_id hf
    by_cases hx : e.expired ep.now = true
    rotate_left
    · rw [if_pos hx] at h; cases h; exact ⟨hb, .refl _⟩
    rw [if_neg (by simpa using hx)] at h
    by_cases hr : e.m.isResponse = true
    · rw [if_pos hr] at h; cases h
    rw [if_neg hr] at h
    have hr' : e.m.isResponse = false := by simpa using hr
    obtain ⟨⟨ep1, keep⟩, h1, h⟩ := Res.bind_eq_ok h
    have hcb' : Calls fun ep => if e.m.ctx.respCb = some Cb.assoc then ep.assocResp e.m.ctx none .ok else cb ep := by
      by_cases ha : e.m.ctx.respCb = some Cb.assoc
      · simp only [ha, if_true]; exact assocResp_goes ok_calls
      · simp only [ha, if_false]; exact hcb
    -- what happens when the entry is given up
    have giveUp : ∀ l e', (e.n1 = 0 ∧ l = [] ∨ e.n1 ≠ 0 ∧ Refused ep .retrans e.id e.m l) →
        e'.id = e.id → e'.timer = none → (∃ enc, e'.m = { e.m with encoded := enc }) → e'.draw = e.draw →
        e'.epoch = e.epoch → (e.m.encoded.isSome → e'.m = e.m) →
        ((if e.m.hasCb = true then
            (({ ep with reqs := setEntry ep.reqs e', log := l ++ ep.log } : Ep).note (.respCb e.id none ep.now)).using e.id
              (fun ep => if e.m.ctx.respCb = some Cb.assoc then ep.assocResp e.m.ctx none .ok else cb ep)
          else .ok ({ ep with reqs := setEntry ep.reqs e', log := l ++ ep.log } : Ep)).bind fun ep =>
            if (ep.reqs.any fun x => x.id = e.id) = true then ep.queueDel e.id else Res.ub) = .ok ep' →
        ep'.busy = [] ∧ Steps (ep, {}) (ep', {}) := by
      intro l e' hl hid ht hm hd hep henc h
      by_cases hc : e.m.hasCb = true
      · rw [if_pos hc] at h
        obtain ⟨ep2, h2, h⟩ := Res.bind_eq_ok h
        obtain ⟨ep3, h3, rfl⟩ := using_ok hcb' h2
        simp only [Ep.note, hb] at h3 h
        split at h
        · rename_i hany
          obtain ⟨ps, t, us, rfl⟩ := queueDel_ok h
          refine ⟨rfl, ?_⟩
          refine Steps.peers (ep := { ep3 with
            reqs := ep3.reqs.filter fun x => x.id ≠ e.id, resps := ep3.resps.filter fun x => x.id ≠ e.id
            busy := [], log := .freed e.id :: ep3.log }) ?_ ps t us
          refine Steps.trans (.one (Micro.timeoutCb ep e e' l hb hf hx hr' hc hl hid ht hm hd hep henc)) ?_
          refine Steps.trans (h3.2 { at' := some (e.id, .gaveUp) }) (.one ?_)
          refine Micro.complete ep3 e.id _ h3.1 ?_ (.inl rfl)
          simpa using hany
        · cases h
      · rw [if_neg hc] at h
        simp only [Res.bind] at h
        split at h
        · obtain ⟨ps, t, us, rfl⟩ := queueDel_ok h
          refine ⟨hb, Steps.peers (ep := { ep with
            reqs := (setEntry ep.reqs e').filter fun x => x.id ≠ e.id, resps := ep.resps.filter fun x => x.id ≠ e.id
            log := .freed e.id :: (l ++ ep.log) }) (.one ?_) ps t us⟩
          have := Micro.timeout ep e l hb hf hx hr' (by simpa using hc) hl
          have h2 := filter_setEntry ep.reqs e'
          rw [hid] at h2
          simp only [h2]
          exact this
        · cases h
    unfold Ep.retrans at h1
    by_cases hn : e.n1 = 0
    · rw [if_pos hn] at h1
      cases h1
      dsimp only at h
      rw [if_neg (by simp)] at h
      exact giveUp [] { e with timer := none } (.inl ⟨hn, rfl⟩) rfl rfl ⟨e.m.encoded, rfl⟩ rfl rfl (fun _ => rfl) h
    · rw [if_neg hn] at h1
      obtain ⟨⟨ep2, m2, rc⟩, h2, h1⟩ := Res.bind_eq_ok h1
      rcases sendMsg_ok h2 with ⟨o, ho, hs, -, hr2⟩ | ⟨l, er, enc, hl, henc, hr2⟩
      · cases hr2
        cases h1
        dsimp only at h
        rw [if_pos rfl] at h
        cases h
        refine ⟨hb, .one ?_⟩
        have := Micro.retrans ep e o hb hf hx hr' hn hs ho
        simp only [Ep.note]
        rw [setEntry_setEntry _ _ _ (by rfl)]
        exact this
      · cases hr2
        cases h1
        dsimp only at h
        rw [if_neg (by simp)] at h
        refine giveUp l { e with m := { e.m with encoded := enc }, n1 := e.n1 - 1, timer := none }
          (.inr ⟨hn, hl⟩) rfl rfl ⟨enc, rfl⟩ rfl rfl ?_ ?_
        · intro hs
          dsimp only
          rw [henc hs]
        · simp only [Ep.logs] at h
          rw [setEntry_setEntry _ _ _ (by rfl)] at h
          exact h

theorem respTimer_tops {ep ep' : Ep} {id} (h : ep.respTimer id = .ok ep') : Tops ep ep' := by
  intro hb
  unfold Ep.respTimer at h
  cases hf : ep.resps.find? (fun e => e.id = id) with
  | none => rw [hf] at h; cases h; exact ⟨hb, .refl _⟩
  | some e =>
    rw [hf] at h
    dsimp only at h
    obtain ⟨he, rfl⟩ := find_id hf
    by_cases hx : e.expired ep.now = true
    rotate_left
    · rw [if_pos hx] at h; cases h; exact ⟨hb, .refl _⟩
    rw [if_neg (by simpa using hx)] at h
    split at h
    · cases h
    · rename_i hr
      obtain ⟨ps, t, us, rfl⟩ := queueDel_ok h
      exact ⟨hb, Steps.peers (ep := { ep with
        reqs := ep.reqs.filter fun x => x.id ≠ e.id, resps := ep.resps.filter fun x => x.id ≠ e.id
        log := .freed e.id :: ep.log }) (.one (Micro.expire ep e hb hf hx (by simpa using hr))) ps t us⟩

/-! ### Reception -/

theorem setCtx_none_goes {ep ep' : Ep} {k r} (h : ep.setCtx k none r = .ok ep') : Goes ep ep' := by
  unfold Ep.setCtx at h
  split at h
  · exact ((Goes.one (a := ep) (b := ep.note (.setCtx k none)) rfl fun ph => .quiet ep ph _ (.setCtx k)).trans
      (takeUses_only _ _).goes).trans (run_goes _ _ _ h)
  · cases h; exact Goes.refl _

theorem dispatch_none_goes {ep ep' : Ep} {k r} (h : ep.dispatch k none r = .ok ep') : Goes ep ep' :=
  (Goes.one (a := ep) (b := ep.note (.dispatch k none)) rfl fun ph => .quiet ep ph _ (.dispatch k)).trans
    (run_goes _ _ _ h)

theorem heartbeatReply_goes {ep ep' : Ep} {k m io} (hk : .received k m ∈ ep.log) (h : ep.heartbeatReply k m io = .ok ep') :
    Goes ep ep' := by
  unfold Ep.heartbeatReply at h
  split at h
  · rename_i ht
    obtain ⟨⟨ep1, m1, rc⟩, h1, h⟩ := Res.bind_eq_ok h
    cases h
    refine Goes.trans (b := { ep with nextId := ep.nextId + 1 }) (Goes.one rfl fun ph => .number ep ph) ?_
    rcases sendMsg_logs h1 with h | ⟨o, ok, ho, h⟩ <;> dsimp only at h <;> rw [h]
    · exact Goes.refl _
    · exact Goes.one rfl fun ph => .replied { ep with nextId := ep.nextId + 1 } ph k m ep.nextId o ok hk ht ho
  · cases h; exact Goes.refl _

theorem handleDuplicate_tops {ep ep' : Ep} {k prev r} {rx : PMsg} (hq : queueFind ep.resps rx = some prev)
    (hrx : rx.isResponse = false) (hk : .received k rx ∈ ep.log) (h : ep.handleDuplicate k prev r = .ok ep') : Tops ep ep' := by
  intro hb
  obtain ⟨ep1, h1, h⟩ := Res.bind_eq_ok h
  obtain ⟨ep2, h2, rfl⟩ := using_ok (fun _ _ h => setCtx_none_goes h) h1
  dsimp only at h
  cases hf : ep2.resps.find? (fun e => e.id = prev.id) with
  | none => rw [hf] at h; cases h
  | some e =>
    rw [hf] at h
    dsimp only at h
    obtain ⟨-, hid⟩ := find_id hf
    obtain ⟨⟨ep3, m3, rc⟩, h3, h⟩ := Res.bind_eq_ok h
    cases h
    have s1 := Steps.one (Micro.dup ep k prev rx hb hq hrx hk)
    rw [hb] at h2 h3
    have s2 := h2.2 { at' := some (prev.id, .dup k) }
    refine ⟨?_, (s1.trans s2).trans (.one ?_)⟩
    · rcases sendMsg_ok h3 with ⟨o, _, _, _, hr⟩ | ⟨l, er, enc, hl, _, hr⟩ <;> cases hr <;> rfl
    · rw [← hid]
      have hb2 : ep2.busy = [e.id] := by rw [h2.1, hid]
      rw [← hid] at hf
      rcases sendMsg_ok h3 with ⟨o, ho, _, _, hr⟩ | ⟨l, er, enc, hl, henc, hr⟩
      · cases hr
        refine Micro.resend ep2 k e [.send (.cachedReply k) e.id e.m.remote o true ep2.now]
          { e.m with encoded := some o } hb2 hf ⟨_, rfl⟩ ?_ (.inr ⟨o, true, ho, rfl⟩)
        intro hs
        unfold PMsg.encode at ho
        cases hm : e.m.encoded with
        | none => simp [hm] at hs
        | some x => simp [hm] at ho; rw [← ho, ← hm]
      · cases hr
        refine Micro.resend ep2 k e l { e.m with encoded := enc } hb2 hf ⟨_, rfl⟩ ?_ ?_
        · intro hs; rw [henc hs]
        · rcases hl with ⟨rfl, hs⟩ | ⟨o, ho, rfl⟩
          · exact .inl ⟨rfl, hs⟩
          · exact .inr ⟨o, false, ho, rfl⟩

theorem respCall_goes {ep : Ep} {m prev r x} (h : ep.respCall m prev r = .ok x) : Goes ep x.1 := by
  unfold Ep.respCall at h
  split at h
  · split at h
    · cases h
    · obtain ⟨ep1, h1, h⟩ := Res.bind_eq_ok h
      cases h
      exact assocResp_goes (run_goes _) _ _ h1
  · obtain ⟨ep1, h1, h⟩ := Res.bind_eq_ok h
    cases h
    exact run_goes _ _ _ h1

theorem handleResponse_tops {ep ep' : Ep} {k prev r} {rx : PMsg} (hq : queueFind ep.reqs rx = some prev)
    (hrx : rx.isResponse = true) (hk : .received k rx ∈ ep.log) (h : ep.handleResponse k rx prev r = .ok ep') : Tops ep ep' := by
  intro hb
  obtain ⟨ep1, h1, h⟩ := Res.bind_eq_ok h
  obtain ⟨ep2, h2, he1⟩ := Res.bind_eq_ok h1
  cases he1
  dsimp only at h
  split at h
  rotate_left
  · cases h
  rename_i hany
  obtain ⟨ps, t, us, rfl⟩ := queueDel_ok h
  obtain ⟨ep3, h3, h2⟩ := Res.bind_eq_ok h2
  have s1 := Steps.one (Micro.found ep k prev rx hb hq hrx hk)
  rw [hb] at h3
  refine ⟨hb, Steps.peers (ep := { ep2 with
    reqs := ep2.reqs.filter fun x => x.id ≠ prev.id, resps := ep2.resps.filter fun x => x.id ≠ prev.id
    busy := ep.busy, log := .freed prev.id :: ep2.log }) (s1.trans ?_) ps t us⟩
  rw [hb]
  -- set_msg_ctx_cb()
  have s2 : ∃ p, (p = PhAt.found k prev.m.hasCb ∨ p = PhAt.matched k prev.m.hasCb) ∧ ep3.busy = [prev.id] ∧
      Steps ({ ep with busy := [prev.id] }, { at' := some (prev.id, .found k prev.m.hasCb) })
        (ep3, { at' := some (prev.id, p) }) := by
    unfold Ep.setCtx at h3
    split at h3
    · have g := (takeUses_only _ _).goes.trans (run_goes _ _ _ h3)
      refine ⟨_, .inr rfl, g.1, Steps.trans (.one ?_) (g.2 _)⟩
      exact Micro.matched { ep with busy := [prev.id] } k prev.id prev.m.hasCb rfl
    · cases h3
      exact ⟨_, .inl rfl, rfl, .refl _⟩
  obtain ⟨p, hp, hb3, s2⟩ := s2
  refine s2.trans ?_
  -- resp_cb(), rx_msg_cb()
  have s3 : ∃ p', (p' = PhAt.gaveUp ∨ (∃ k, p' = .called k) ∨ ∃ k, p' = .dispatched k) ∧ ep2.busy = [prev.id] ∧
      Steps (ep3, { at' := some (prev.id, p) }) (ep2, { at' := some (prev.id, p') }) := by
    by_cases hc : prev.m.hasCb = true
    · rw [if_pos hc] at h2
      obtain ⟨⟨ep4, rc⟩, h4, h2⟩ := Res.bind_eq_ok h2
      have g := respCall_goes h4
      have t1 : Steps (ep3, { at' := some (prev.id, p) }) (ep4, { at' := some (prev.id, .called k) }) := by
        refine Steps.trans (.one (Micro.called ep3 k prev.id p hb3 ?_)) (g.2 _)
        rwa [hc] at hp
      have hb4 : ep4.busy = [prev.id] := g.1.trans hb3
      dsimp only at h2
      split at h2
      · cases h2
        exact ⟨_, .inr (.inl ⟨k, rfl⟩), hb4, t1⟩
      · have g2 := run_goes _ _ _ h2
        exact ⟨_, .inr (.inr ⟨k, rfl⟩), g2.1.trans hb4,
          t1.trans (Steps.trans (.one (Micro.dispatched ep4 k prev.id _ hb4 (.inl rfl))) (g2.2 _))⟩
    · rw [if_neg hc] at h2
      have hc' : prev.m.hasCb = false := by simpa using hc
      rw [hc'] at hp
      have g2 := run_goes _ _ _ h2
      exact ⟨_, .inr (.inr ⟨k, rfl⟩), g2.1.trans hb3,
        Steps.trans (.one (Micro.dispatched ep3 k prev.id p hb3 (.inr hp))) (g2.2 _)⟩
  obtain ⟨p', hp', hb2, s3⟩ := s3
  refine s3.trans (.one ?_)
  exact Micro.complete ep2 prev.id p' hb2 (by simpa using hany) hp'

theorem heartbeatReply_log {ep ep' : Ep} {k m io} (h : ep.heartbeatReply k m io = .ok ep') :
    ∃ l, ep'.log = l ++ ep.log := by
  unfold Ep.heartbeatReply at h
  split at h
  · obtain ⟨⟨ep1, m1, rc⟩, h1, h⟩ := Res.bind_eq_ok h
    cases h
    rcases sendMsg_ok h1 with ⟨o, _, _, _, hr⟩ | ⟨l, e, enc, hl, -, hr⟩ <;> cases hr
    · exact ⟨[_], rfl⟩
    · exact ⟨l, rfl⟩
  · cases h; exact ⟨[], rfl⟩

theorem handleRx_tops {ep ep' : Ep} {m r} (h : ep.handleRx m r = .ok ep') : Tops ep ep' := by
  unfold Ep.handleRx at h
  obtain ⟨ep1, h1, h⟩ := Res.bind_eq_ok h
  obtain ⟨ep2, h, h9⟩ := Res.bind_eq_ok h
  refine Tops.trans ?_ (releaseUses_only h9).goes.tops
  unfold Ep.handleMsg at h
  have g1 : Goes ep ep1 :=
    (Goes.trans (a := ep) (b := { ep with nextId := ep.nextId + 1 }) (Goes.one rfl fun ph => .number ep ph)
      (Goes.one (a := { ep with nextId := ep.nextId + 1 })
        (b := { ep with nextId := ep.nextId + 1 }.note (.received ep.nextId m)) rfl
        fun ph => .quiet _ ph _ (.received ep.nextId m))).trans
      (heartbeatReply_goes (.head _) h1)
  refine g1.tops.trans ?_
  have hk : .received ep.nextId m ∈ ep1.log := by
    obtain ⟨l, hl⟩ := heartbeatReply_log h1
    rw [hl]
    simp [Ep.note]
  split at h
  · rename_i prev hq
    by_cases hm : m.isResponse = true
    · rw [if_pos hm] at h hq
      exact handleResponse_tops hq hm hk h
    · rw [if_neg hm] at h hq
      exact handleDuplicate_tops hq (by simpa using hm) hk h
  · obtain ⟨ep2, h2, h⟩ := Res.bind_eq_ok h
    exact ((setCtx_none_goes h2).trans (dispatch_none_goes h)).tops

theorem handleAll_tops {remote} : ∀ {l : List Rx} {rs} {ep ep' : Ep},
    ep.handleAll remote l rs = .ok ep' → Tops ep ep'
  | [], _, ep, ep', h => by cases h; exact Tops.refl _
  | ⟨_, none⟩ :: l, rs, ep, ep', h => handleAll_tops (l := l) h
  | ⟨d, some ies⟩ :: l, rs, ep, ep', h => by
    obtain ⟨ep1, h1, h⟩ := Res.bind_eq_ok h
    exact (handleRx_tops h1).trans (handleAll_tops h)

theorem rxDatagram_tops {ep ep' : Ep} {remote d rs} (h : ep.rxDatagram remote d rs = .ok ep') : Tops ep ep' := by
  unfold Ep.rxDatagram at h
  dsimp only at h
  split at h
  · cases h; exact Tops.refl _
  split at h
  · cases h
  obtain ⟨l, _, h⟩ := Res.bind_eq_ok h
  exact handleAll_tops h

theorem step_tops {op : Op} {ep ep' : Ep} (h : op.step ep = .ok ep') : Tops ep ep' := by
  cases op with
  | app a => exact (run_goes a _ _ h).tops
  | rx remote d rs => exact rxDatagram_tops h
  | advance ms => cases h; exact fun hb => ⟨hb, .one (.advance ep ms)⟩
  | reqTimer id io f => exact reqTimer_tops (run_goes f) h
  | respTimer id => exact respTimer_tops h
  | peerTimer fi io => exact (peerTimer_goes h).tops

/-- Every history is a sequence of small steps. -/
theorem exec_tops : ∀ {ops : List Op} {ep ep' : Ep}, exec ops ep = .ok ep' → Tops ep ep'
  | [], ep, ep', h => by cases h; exact Tops.refl _
  | op :: ops, ep, ep', h => by
    obtain ⟨ep1, h1, h⟩ := Res.bind_eq_ok h
    exact (step_tops h1).trans (exec_tops h)

/-- An invariant of the small steps holds after every history. -/
theorem exec_invariant {I : Ep × Ph → Prop} (hI : ∀ a b, I a → Micro a b → I b) {ops : List Op} {ep ep' : Ep}
    (h : exec ops ep = .ok ep') (hb : ep.busy = []) (h0 : I (ep, {})) : I (ep', {}) := by
  have := (exec_tops h hb).2
  generalize (ep', ({} : Ph)) = x at this
  induction this with
  | refl => exact h0
  | snoc _ m ih => exact hI _ _ ih m

end Verif
