/-
What a CP peer's Association Setup Requests contain, after every history.
-/
import Verif.EndpointMoves
import Verif.PropsPeer

namespace Verif
open Spec

/-- The requests of CP peers in the history are Association Setup Requests of an endpoint with Node ID `n` and Recovery Time Stamp `r`. -/
structure Own (n : NodeId) (r : Nat) (ep : Ep) : Prop where
  node : ep.cfg.nodeId = n
  rts : ep.rts = r
  all : ∀ id n1 t1 q, Event.passed id n1 t1 q ∈ ep.log → q.ctx.respCb = some Cb.assoc →
    q.h = { version := 1, type := 5, seq := q.h.seq } ∧ q.ies = assocIes n r ∧ q.isResponse = false ∧ q.encoded = none ∧ q.h.seq < 2 ^ 24 ∧
    ∃ fi p, q.ctx.peerFi = some fi ∧ ep.peer? fi = some p ∧ p.remote = q.remote

/-- Events that do not pass a message. -/
def unpassing : Event → Bool
  | .passed .. => false
  | _ => true

theorem idle_unpassing {e} (h : idle e = true) : unpassing e = true := by
  cases e <;> first | rfl | cases h

/-- The CP peers are still there, and have the same addresses. -/
def Stay (ep ep' : Ep) : Prop := ∀ fi p, ep.peer? fi = some p → ∃ p', ep'.peer? fi = some p' ∧ p'.remote = p.remote

theorem Own.stay {n r} {ep ep' : Ep} (h : Own n r ep) (hc : ep'.cfg = ep.cfg) (hr : ep'.rts = ep.rts) (l : List Event)
    (hl : ep'.log = l ++ ep.log) (hu : ∀ e ∈ l, unpassing e = true) (hs : Stay ep ep') : Own n r ep' := by
  refine ⟨by rw [hc]; exact h.node, by rw [hr]; exact h.rts, fun id n1 t1 q hq hx => ?_⟩
  rw [hl] at hq
  rcases List.mem_append.1 hq with hq | hq
  · exact absurd (hu _ hq) nofun
  · obtain ⟨h1, h2, h3, h4, h5, fi, p, h6, h7, h8⟩ := h.all id n1 t1 q hq hx
    obtain ⟨p', h9, h10⟩ := hs fi p h7
    exact ⟨h1, h2, h3, h4, h5, fi, p', h6, h9, h10.trans h8⟩

theorem Own.same {n r} {ep ep' : Ep} (h : Own n r ep) (hc : ep'.cfg = ep.cfg) (hr : ep'.rts = ep.rts) (l : List Event)
    (hl : ep'.log = l ++ ep.log) (hu : ∀ e ∈ l, unpassing e = true) (hps : ep'.peers = ep.peers := by rfl) : Own n r ep' :=
  h.stay hc hr l hl hu fun fi p hp => ⟨p, (peer?_eq hps fi).trans hp, rfl⟩

theorem setPeer_stay {ep : Ep} {fi p q} (hp : ep.peer? fi = some p) (hq : q.fi = fi) (hr : q.remote = p.remote) :
    Stay ep { ep with peers := setPeer ep.peers q } := by
  intro f x hx
  by_cases hf : f = fi
  · subst hf
    rw [hp] at hx
    cases hx
    exact ⟨q, setPeer_peer? hp hq rfl, hr⟩
  · refine ⟨x, ?_, rfl⟩
    show List.find? _ (setPeer ep.peers q) = _
    rw [find_setPeer, if_neg (by rw [hq]; exact hf)]
    exact hx

theorem Own.note {n r} {ep : Ep} (h : Own n r ep) (e : Event) (hu : unpassing e = true) : Own n r (ep.note e) :=
  h.same rfl rfl [e] rfl (by simpa using hu)

/-- It keeps the property. -/
def KeepsOwn (n : NodeId) (r : Nat) (f : Ep → Res Ep) : Prop := ∀ ep ep', Own n r ep → f ep = .ok ep' → Own n r ep'

theorem ok_keepsOwn {n r} : KeepsOwn n r .ok := by intro ep ep' h hx; cases hx; exact h

theorem Own.releaseUses {n r us} {ep ep' : Ep} (h : Own n r ep) (hx : ep.releaseUses us = .ok ep') : Own n r ep' := by
  obtain ⟨rfl, _⟩ := releaseUses_ok hx
  exact h.same rfl rfl [] rfl (by simp)

theorem Own.peerChg {n r} {ep : Ep} (h : Own n r ep) (fi s) : Own n r (ep.peerChg fi s) := by
  unfold Ep.peerChg
  split
  · exact h
  · rename_i p hp
    split
    · refine h.stay rfl rfl [.peer fi (.state s)] rfl (by simp [unpassing]) ?_
      exact setPeer_stay (q := p.enter s ep.now ep.t26) hp (show _ = _ from (peer?_fi hp :)) rfl
    · exact h

theorem Own.sendMsg {n r} {ep : Ep} {why id m io x} (hm : Own n r ep) (h : ep.sendMsg why id m io = .ok x) : Own n r x.1 := by
  rcases sendMsg_ok h with ⟨o, _, _, _, rfl⟩ | ⟨l, e, enc, hl, _, rfl⟩
  · exact hm.note _ rfl
  · rcases hl with ⟨rfl, _⟩ | ⟨o, _, rfl⟩
    · exact hm.same rfl rfl [] rfl (by simp)
    · exact hm.same rfl rfl [_] rfl (by simp [unpassing])

theorem Own.enqueue {n r} {ep : Ep} (h : Own n r ep) (e : QEntry) : Own n r (ep.enqueue e) := by
  unfold Ep.enqueue
  split <;> exact h.same rfl rfl [] rfl (by simp)

theorem Own.begun {n r} {ep : Ep} (h : Own n r ep) (m : PMsg) : Own n r (ep.begun m) := by
  unfold Ep.begun
  split <;> exact h.same rfl rfl [] rfl (by simp)

/-- osmo_pfcp_endpoint_tx(): by the application, or by a CP peer with its request. -/
theorem Own.tx {n r} {ep ep' : Ep} {m : PMsg} {io cb} (hm : Own n r ep)
    (ha : m.ctx.respCb = some Cb.assoc → (ep.outgoing m).h = { version := 1, type := 5, seq := (ep.outgoing m).h.seq } ∧
      (ep.outgoing m).ies = assocIes n r ∧ (ep.outgoing m).isResponse = false ∧ (ep.outgoing m).encoded = none ∧ (ep.outgoing m).h.seq < 2 ^ 24 ∧
      ∃ fi p, (ep.outgoing m).ctx.peerFi = some fi ∧ ep.peer? fi = some p ∧ p.remote = (ep.outgoing m).remote)
    (hcb : KeepsOwn n r cb) (ht : ep.tx m io cb = .ok ep') : Own n r ep' := by
  obtain ⟨ep1, o, ⟨l, h1, hl⟩, hc⟩ := tx_cases ht
  have hb0 := hm.begun m
  have hb : Own n r ep1 := by
    have h2 : Own n r ((ep.begun m).note (.passed ep.nextId ep.n1 ep.t1 (ep.outgoing m))) := by
      refine ⟨hb0.node, hb0.rts, fun id n1 t1 q hq => ?_⟩
      rcases List.mem_cons.1 hq with hq | hq
      · cases hq
        intro hx
        rw [outgoing_ctx] at hx
        obtain ⟨h1, h2, h3, h4, h5, fi, p, h6, h7, h8⟩ := ha hx
        exact ⟨h1, h2, h3, h4, h5, fi, p, h6, (peer?_eq (begun_peers ep m) fi).trans h7, h8⟩
      · exact hb0.all id n1 t1 q hq
    rw [h1]
    exact h2.same rfl rfl l rfl fun e he => idle_unpassing (hl e he)
  have fail : ∀ {ep2}, ep1.failCb ep.nextId { ep.outgoing m with encoded := o } cb = .ok ep2 → Own n r ep2 := by
    intro ep2 h2
    rcases failCb_ok h2 with ⟨ep3, h3, rfl⟩ | ⟨_, rfl⟩
    · have := hcb { ep1.note (.respCb ep.nextId none ep1.now) with busy := ep.nextId :: ep1.busy } ep3
        (hb.same rfl rfl [_] rfl (by simp [unpassing])) h3
      exact this.same rfl rfl [] rfl (by simp)
    · exact hb
  rcases hc with ⟨ep2, ep3, e, h2, h3, rfl⟩ | ⟨ep2, h2, rfl⟩ | rfl
  · exact (((fail h2).releaseUses h3).note _ rfl).note _ rfl
  · exact (fail h2).note _ rfl
  · exact (hb.enqueue _).note _ rfl

/-- on_pfcp_assoc_resp() -/
theorem assocResp_own {n r ctx resp cb} (hcb : KeepsOwn n r cb) : KeepsOwn n r fun ep => ep.assocResp ctx resp cb := by
  intro ep ep' hm h
  dsimp only at h
  unfold Ep.assocResp at h
  split at h
  · cases h
  split at h
  · cases h
  split at h
  · cases h; exact hm.peerChg _ _
  split at h
  · cases h; exact hm.peerChg _ _
  split at h
  · cases h; exact hm
  dsimp only at h
  split at h
  · exact hcb _ _ ((hm.peerChg _ _).note _ rfl) h
  · cases h; exact hm.peerChg _ _

theorem Own.assocStart {n r} {ep ep' : Ep} {fi p io} (hm : Own n r ep) (hp : ∃ p0, ep.peer? fi = some p0 ∧ p0.remote = p.remote)
    (hfi : p.fi = fi) (ha : ep.assocStart fi p io = .ok ep') : Own n r ep' := by
  unfold Ep.assocStart at ha
  split at ha
  · cases ha; exact hm
  dsimp only at ha
  obtain ⟨ep9, ht, ha⟩ := Res.bind_eq_ok ha
  have h1 := hm.peerChg fi .waitAssoc
  obtain ⟨p0, hp, hrem⟩ := hp
  have hp1 : ∃ p', (ep.peerChg fi .waitAssoc).peer? fi = some p' ∧ p'.remote = p.remote := by
    unfold Ep.peerChg
    rw [hp]
    dsimp only
    split
    · exact ⟨_, setPeer_peer? (q := p0.enter .waitAssoc ep.now ep.t26) (ep := ep) hp (show _ = _ from (peer?_fi hp :)) rfl, hrem⟩
    · exact ⟨p0, hp, hrem⟩
  generalize ep.peerChg fi .waitAssoc = ep1 at ht h1 hp1
  have h2 : Own n r (ep1.takeUses (assocReq p ep1.rts).ctx.uses) := h1.same rfl rfl [] rfl (by simp)
  have h9 : Own n r ep9 := by
    refine h2.tx (fun _ => ?_) (assocResp_own ok_keepsOwn) ht
    have ho : (ep1.takeUses (assocReq p ep1.rts).ctx.uses).outgoing (assocReq p ep1.rts) =
        { assocReq p ep1.rts with h := { version := 1, type := 5, seq := (nextSeqNr ep1.seq).toNat }, ies := assocIes n r } := by
      rw [← h1.node, ← h1.rts]
      rfl
    rw [ho]
    obtain ⟨p', hp', hr'⟩ := hp1
    exact ⟨rfl, rfl, rfl, rfl, (Props.C30_in_range _).2, fi, p', by rw [← hfi]; rfl, hp', hr'⟩
  cases ha
  split
  · exact h9.peerChg _ _
  · exact h9

theorem Own.associate {n r} {ep ep' : Ep} {fi io} (hm : Own n r ep) (ha : ep.associate fi io = .ok ep') : Own n r ep' := by
  unfold Ep.associate at ha
  split at ha
  · cases ha; exact hm
  · rename_i p hp
    split at ha
    · exact hm.assocStart ⟨p, hp, rfl⟩ (peer?_fi hp) ha
    · cases ha; exact hm

theorem Own.txDirect {n r} {ep ep' : Ep} {m io why} (hm : Own n r ep) (h : ep.txDirect m io why = .ok ep') : Own n r ep' := by
  obtain ⟨x, h1, h2⟩ := Res.bind_eq_ok h
  cases h2
  exact Own.sendMsg (ep := { ep with nextId := ep.nextId + 1 }) (hm.same rfl rfl [] rfl (by simp)) h1

theorem Own.close {n r} {ep ep' : Ep} (hm : Own n r ep) (h : ep.close = .ok ep') : Own n r ep' := by
  unfold Ep.close at h
  split at h
  · cases h
  · obtain ⟨ep1, h1, h2⟩ := Res.bind_eq_ok h
    cases h2
    refine (hm.releaseUses h1).same rfl rfl _ rfl ?_
    intro e he
    simp only [List.mem_reverse, List.mem_flatten, List.mem_map] at he
    obtain ⟨l, ⟨x, _, rfl⟩, he⟩ := he
    simp only [List.mem_cons, List.not_mem_nil, or_false] at he
    rcases he with rfl | rfl <;> rfl

theorem run_own {n r} (a : App) : KeepsOwn n r a.run := by
  induction a with
  | done => exact ok_keepsOwn
  | tx m io onFail rest ih1 ih2 =>
    intro ep ep' hm h
    simp only [App.run] at h
    split at h
    · cases h
    · rename_i ha
      obtain ⟨ep1, h1, h⟩ := Res.bind_eq_ok h
      have h0 : Own n r (ep.takeUses m.ctx.uses) := hm.same rfl rfl [] rfl (by simp)
      exact ih2 _ _ (h0.tx (fun hx => absurd hx ha) ih1 h1) h
  | txData m io rest ih =>
    intro ep ep' hm h
    obtain ⟨ep1, h1, h⟩ := Res.bind_eq_ok h
    exact ih _ _ (hm.txDirect h1) h
  | heartbeat x io rest ih =>
    intro ep ep' hm h
    obtain ⟨ep1, h1, h⟩ := Res.bind_eq_ok h
    exact ih _ _ (Own.txDirect (ep := (ep.draw (heartbeatReq x ep.rts)).1) (hm.same rfl rfl [] rfl (by simp)) h1) h
  | invalidate fi rest ih => intro ep ep' hm h; refine ih _ _ ?_ h; exact hm.same rfl rfl [.invalidated fi] rfl (by simp [unpassing])
  | setSeq s rest ih => intro ep ep' hm h; exact ih { ep with seq := s, resets := ep.resets + 1 } _ (hm.same rfl rfl [] rfl (by simp)) h
  | setTimers n1 t1 kr rest ih =>
    intro ep ep' hm h
    refine ih _ _ ?_ h; exact hm.same rfl rfl [.config n1 t1 kr] rfl (by simp [unpassing])
  | close rest ih =>
    intro ep ep' hm h
    obtain ⟨ep1, h1, h⟩ := Res.bind_eq_ok h
    exact ih _ _ (hm.close h1) h
  | bind ok rest ih =>
    intro ep ep' hm h
    obtain ⟨ep1, h1, h⟩ := Res.bind_eq_ok h
    obtain ⟨ep2, h2, h1⟩ := Res.bind_eq_ok h1
    cases h1
    exact ih { ep2 with sock := ep2.cfg.hasRx && ok } _ ((hm.close h2).same rfl rfl [] rfl (by simp)) h
  | setT26 t rest ih =>
    intro ep ep' hm h
    refine ih _ _ ?_ h; exact hm.same rfl rfl [.configT26 t] rfl (by simp [unpassing])
  | newPeer fi x rest ih =>
    intro ep ep' hm h
    refine ih _ _ ?_ h
    unfold Ep.newPeer
    split
    · exact hm
    · rename_i hn
      refine hm.stay rfl rfl [] rfl (by simp) fun f p hp => ⟨p, ?_, rfl⟩
      have hf : f ≠ fi := by
        intro e; subst e
        rw [hp] at hn
        first | exact absurd rfl hn | simp at hn
      show List.find? _ (_ :: _) = _
      rw [List.find?_cons_of_neg (by simpa using Ne.symm hf)]
      exact hp
  | setAssocCb fi cb rest ih =>
    intro ep ep' hm h
    refine ih _ _ ?_ h
    unfold Ep.setAssocCb
    split
    · exact hm
    · rename_i p hp
      refine hm.stay rfl rfl [.peer fi (.cbSet cb)] rfl (by simp [unpassing]) ?_
      exact setPeer_stay (q := { p with hasCb := cb }) hp (show _ = _ from (peer?_fi hp :)) rfl
  | associate fi io rest ih =>
    intro ep ep' hm h
    obtain ⟨ep1, h1, h⟩ := Res.bind_eq_ok h
    exact ih _ _ (hm.associate h1) h

theorem Own.queueDel {n r} {ep ep' : Ep} {id} (hm : Own n r ep) (h : ep.queueDel id = .ok ep') : Own n r ep' := by
  obtain ⟨ep1, h1, h2⟩ := Res.bind_eq_ok h
  cases h2
  exact (hm.releaseUses h1).same rfl rfl [.freed id] rfl (by simp [unpassing])

theorem Own.retrans {n r} {ep : Ep} {e io x} (hm : Own n r ep) (h : ep.retrans e io = .ok x) : Own n r x.1 := by
  unfold Ep.retrans at h
  split at h
  · cases h; exact hm
  · obtain ⟨⟨ep2, m2, rc⟩, h2, h1⟩ := Res.bind_eq_ok h
    have := hm.sendMsg h2
    cases rc <;> cases h1
    · exact this.same rfl rfl [] rfl (by simp)
    · exact this.same rfl rfl [] rfl (by simp)

theorem Own.reqTimer {n r} {ep ep' : Ep} {id io} {a : App} (hm : Own n r ep) (hx : ep.reqTimer id io a.run = .ok ep') : Own n r ep' := by
  unfold Ep.reqTimer at hx
  split at hx
  · cases hx; exact hm
  rename_i e _
  split at hx
  · cases hx; exact hm
  split at hx
  · cases hx
  obtain ⟨⟨ep1, keep⟩, h1, hx⟩ := Res.bind_eq_ok hx
  have hm1 : Own n r ep1 := Own.retrans (ep := { ep with reqs := setEntry ep.reqs { e with timer := none } })
    (hm.same rfl rfl [] rfl (by simp)) h1
  dsimp only at hx
  split at hx
  · cases hx; exact hm1
  obtain ⟨ep2, h2, hx⟩ := Res.bind_eq_ok hx
  split at hx
  rotate_left
  · cases hx
  refine Own.queueDel ?_ hx
  split at h2
  · obtain ⟨ep3, h3, h2⟩ := Res.bind_eq_ok h2
    cases h2
    have h9 : Own n r ep3 := by
      split at h3
      · refine assocResp_own ok_keepsOwn _ _ ?_ h3
        exact hm1.same rfl rfl [.respCb id none ep1.now] rfl (by simp [unpassing])
      · refine run_own a _ _ ?_ h3
        exact hm1.same rfl rfl [.respCb id none ep1.now] rfl (by simp [unpassing])
    exact h9.same rfl rfl [] rfl (by simp)
  · cases h2; exact hm1

theorem Own.respTimer {n r} {ep ep' : Ep} {id} (hm : Own n r ep) (hx : ep.respTimer id = .ok ep') : Own n r ep' := by
  unfold Ep.respTimer at hx
  split at hx
  · cases hx; exact hm
  split at hx
  · cases hx; exact hm
  split at hx
  · cases hx
  exact Own.queueDel (hm.same rfl rfl [] rfl (by simp)) hx

theorem Own.setCtx {n r} {ep ep' : Ep} {k req x} (hm : Own n r ep) (hx : ep.setCtx k req x = .ok ep') : Own n r ep' := by
  unfold Ep.setCtx at hx
  split at hx
  · refine run_own _ _ _ ?_ hx; exact hm.same rfl rfl [.setCtx k req] rfl (by simp [unpassing])
  · cases hx; exact hm

theorem Own.dispatch {n r} {ep ep' : Ep} {k req x} (hm : Own n r ep) (hx : ep.dispatch k req x = .ok ep') : Own n r ep' :=
  run_own _ _ _ (hm.note (.dispatch k req) rfl) hx

theorem Own.handleDuplicate {n r} {ep ep' : Ep} {k prev x} (hm : Own n r ep) (hx : ep.handleDuplicate k prev x = .ok ep') : Own n r ep' := by
  obtain ⟨ep1, h1, hx⟩ := Res.bind_eq_ok hx
  obtain ⟨ep2, h2, h1⟩ := Res.bind_eq_ok h1
  cases h1
  have h0 : Own n r { ep with busy := prev.id :: ep.busy } := hm.same rfl rfl [] rfl (by simp)
  have h3 : Own n r { ep2 with busy := ep.busy } := (h0.setCtx h2).same rfl rfl [] rfl (by simp)
  dsimp only at hx
  split at hx
  · cases hx
  · obtain ⟨y, h4, hx⟩ := Res.bind_eq_ok hx
    cases hx
    exact (h3.sendMsg h4).same rfl rfl [] rfl (by simp)

theorem Own.handleResponse {n r} {ep ep' : Ep} {k m prev x} (hm : Own n r ep) (hx : ep.handleResponse k m prev x = .ok ep') : Own n r ep' := by
  obtain ⟨ep1, h1, hx⟩ := Res.bind_eq_ok hx
  obtain ⟨ep2, h2, he1⟩ := Res.bind_eq_ok h1
  cases he1
  dsimp only at hx
  split at hx
  rotate_left
  · cases hx
  have h0 : Own n r { ep with busy := prev.id :: ep.busy } := hm.same rfl rfl [] rfl (by simp)
  suffices h9 : Own n r ep2 from Own.queueDel (ep := { ep2 with busy := ep.busy }) (h9.same rfl rfl [] rfl (by simp)) hx
  obtain ⟨ep3, h3, h2⟩ := Res.bind_eq_ok h2
  have hm3 := h0.setCtx h3
  split at h2
  · obtain ⟨⟨ep4, rc⟩, h4, h2⟩ := Res.bind_eq_ok h2
    dsimp only at h2
    have hm4 : Own n r ep4 := by
      have hn := hm3.note (.respCb prev.id (some k) ep3.now) rfl
      unfold Ep.respCall at h4
      split at h4
      · split at h4
        · cases h4
        obtain ⟨ep5, h5, h4⟩ := Res.bind_eq_ok h4
        cases h4
        exact assocResp_own (run_own x.onResp) _ _ hn h5
      · obtain ⟨ep5, h5, h4⟩ := Res.bind_eq_ok h4
        cases h4
        exact run_own _ _ _ hn h5
    split at h2
    · cases h2; exact hm4
    · exact hm4.dispatch h2
  · exact hm3.dispatch h2

theorem Own.handleRx {n r} {ep ep' : Ep} {m x} (hm : Own n r ep) (hx : ep.handleRx m x = .ok ep') : Own n r ep' := by
  unfold Ep.handleRx at hx
  obtain ⟨ep1, h1, hx⟩ := Res.bind_eq_ok hx
  obtain ⟨ep2, h2, hx⟩ := Res.bind_eq_ok hx
  refine Own.releaseUses ?_ hx
  have h0 : Own n r ({ ep with nextId := ep.nextId + 1 }.note (.received ep.nextId m)) :=
    hm.same rfl rfl [.received ep.nextId m] rfl (by simp [unpassing])
  have hb1 : Own n r ep1 := by
    unfold Ep.heartbeatReply at h1
    split at h1
    · obtain ⟨⟨ep3, m3, rc⟩, h3, h1⟩ := Res.bind_eq_ok h1
      cases h1
      refine Own.sendMsg (ep := { ({ ep with nextId := ep.nextId + 1 }.note (.received ep.nextId m)) with
        nextId := ({ ep with nextId := ep.nextId + 1 }.note (.received ep.nextId m)).nextId + 1 }) ?_ h3
      exact h0.same rfl rfl [] rfl (by simp)
    · cases h1; exact h0
  unfold Ep.handleMsg at h2
  split at h2
  · split at h2
    · exact hb1.handleResponse h2
    · exact hb1.handleDuplicate h2
  · obtain ⟨ep3, h3, h2⟩ := Res.bind_eq_ok h2
    exact (hb1.setCtx h3).dispatch h2

theorem Own.handleAll {n r remote} : ∀ {l : List Rx} {rs} {ep ep' : Ep}, Own n r ep → ep.handleAll remote l rs = .ok ep' → Own n r ep'
  | [], _, ep, ep', hm, hx => by cases hx; exact hm
  | ⟨_, none⟩ :: l, rs, ep, ep', hm, hx => Own.handleAll (l := l) hm hx
  | ⟨d, some ies⟩ :: l, rs, ep, ep', hm, hx => by
    obtain ⟨ep1, h1, hx⟩ := Res.bind_eq_ok hx
    exact Own.handleAll (hm.handleRx h1) hx

theorem Own.step {n r} {ep ep' : Ep} {op : Op} (h : Both [] [] none none ep) (hm : Own n r ep) (hx : op.step ep = .ok ep') : Own n r ep' := by
  cases op with
  | app a => exact run_own a _ _ hm hx
  | rx remote d rs =>
    have hx : ep.rxDatagram remote d rs = .ok ep' := hx
    unfold Ep.rxDatagram at hx
    dsimp only at hx
    split at hx
    · cases hx; exact hm
    split at hx
    · cases hx
    obtain ⟨l, _, hx⟩ := Res.bind_eq_ok hx
    exact hm.handleAll hx
  | advance ms => cases hx; exact hm.same rfl rfl [] rfl (by simp)
  | reqTimer id io f => exact hm.reqTimer hx
  | respTimer id => exact hm.respTimer hx
  | peerTimer fi io =>
    have hx : ep.peerTimer fi io = .ok ep' := hx
    rcases h.peer.peerTimer_eq fi io with ⟨hy, _⟩ | ⟨p, hp, hs, _, hy⟩
    · rw [hy] at hx; cases hx; exact hm
    · rw [hy] at hx; exact hm.assocStart ⟨p, hp, rfl⟩ (peer?_fi hp) hx

/-- After every history. -/
theorem Reached.own {ep : Ep} (h : Reached ep) : Own ep.cfg.nodeId ep.rts ep := by
  suffices h : ∃ n r, Own n r ep by
    obtain ⟨n, r, h⟩ := h
    rw [h.node, h.rts]
    exact h
  induction h with
  | create cfg n1 t1 keepResp time now => 
    refine ⟨cfg.nodeId, _, rfl, rfl, fun id n1' t1' q hq => ?_⟩
    cases List.mem_singleton.1 hq
  | op o h hx ih => obtain ⟨n, r, ih⟩ := ih; exact ⟨n, r, ih.step h.both hx⟩
  | rx m r h hx ih => obtain ⟨n, r, ih⟩ := ih; exact ⟨n, r, ih.handleRx hx⟩

end Verif
