/-
C76: a closed endpoint is silent.
-/
import Verif.SpecClosed
import Verif.EndpointSafe
import Verif.PropsEndpoint

namespace Verif
open Spec

/-- The endpoint is closed. -/
structure Shut (ep : Ep) : Prop where
  sock : ep.sock = false
  reqs : ep.reqs = []
  resps : ep.resps = []

/-- From a closed endpoint to a closed endpoint, without traffic. -/
structure Hush (ep ep' : Ep) : Prop where
  shut : Shut ep'
  log : ∃ l, ep'.log = l ++ ep.log ∧ ∀ e ∈ l, ¬ Traffic e

theorem Hush.refl {ep : Ep} (h : Shut ep) : Hush ep ep := ⟨h, [], rfl, by simp⟩
theorem Hush.trans {a b c : Ep} (h : Hush a b) (h' : Hush b c) : Hush a c := by
  obtain ⟨-, l, e, hl⟩ := h
  obtain ⟨s, l', e', hl'⟩ := h'
  refine ⟨s, l' ++ l, by rw [e', e, List.append_assoc], ?_⟩
  intro x hx
  rcases List.mem_append.1 hx with hx | hx
  · exact hl' x hx
  · exact hl x hx

theorem Shut.same {ep ep' : Ep} (h : Shut ep) (h1 : ep'.sock = ep.sock) (h2 : ep'.reqs = ep.reqs)
    (h3 : ep'.resps = ep.resps) : Shut ep' := ⟨h1 ▸ h.sock, h2 ▸ h.reqs, h3 ▸ h.resps⟩

theorem Hush.same {ep ep' : Ep} (h : Shut ep) (h1 : ep'.sock = ep.sock) (h2 : ep'.reqs = ep.reqs)
    (h3 : ep'.resps = ep.resps) (h4 : ep'.log = ep.log) : Hush ep ep' := ⟨h.same h1 h2 h3, [], by simpa using h4, by simp⟩

theorem Hush.note {ep : Ep} (h : Shut ep) {e : Event} (he : ¬ Traffic e) : Hush ep (ep.note e) :=
  ⟨h.same rfl rfl rfl, [e], rfl, by simpa using he⟩

/-- A function that keeps a closed endpoint silent. -/
def Hushes (f : Ep → Res Ep) : Prop := ∀ ep ep', Shut ep → f ep = .ok ep' → Hush ep ep'

theorem releaseUses_still {us} : Hushes fun ep => ep.releaseUses us := by
  intro ep ep' h hx
  obtain ⟨rfl, -⟩ := releaseUses_ok hx
  exact .same h rfl rfl rfl rfl

theorem peerChg_still {ep : Ep} (h : Shut ep) (fi s) : Hush ep (ep.peerChg fi s) := by
  unfold Ep.peerChg
  split
  · exact .refl h
  · split
    · exact ⟨h.same rfl rfl rfl, [_], rfl, by intro e he; simp at he; subst he; simp [Traffic]⟩
    · exact .refl h

/-- Nothing is sent by a closed endpoint. -/
theorem sendMsg_still {ep : Ep} {why id m io r} (h : Shut ep) (hx : ep.sendMsg why id m io = .ok r) :
    r.1 = ep ∧ r.2.2 ≠ none := by
  unfold Ep.sendMsg at hx
  split at hx
  · rw [if_neg (by simp [h.sock])] at hx
    cases hx
    exact ⟨rfl, by simp⟩
  · cases hx; exact ⟨rfl, by simp⟩
  all_goals cases hx

theorem using_still {id f} (hf : Hushes f) : Hushes fun ep => ep.using id f := by
  intro ep ep' h hx
  obtain ⟨ep1, h1, h2⟩ := Res.bind_eq_ok hx
  cases h2
  have := hf _ _ (h.same (ep' := { ep with busy := id :: ep.busy }) rfl rfl rfl) h1
  exact ⟨this.shut.same rfl rfl rfl, this.log⟩

theorem failCb_still {id m cb} (hcb : Hushes cb) : Hushes fun ep => ep.failCb id m cb := by
  intro ep ep' h hx
  dsimp only [Ep.failCb] at hx
  split at hx
  · have h1 : Hush ep (ep.note (.respCb id none ep.now)) := .note h (by simp [Traffic])
    exact h1.trans (using_still hcb _ _ h1.shut hx)
  · cases hx; exact .refl h

theorem tx_still {m io cb} (hcb : Hushes cb) : Hushes fun ep => ep.tx m io cb := by
  intro ep ep' h hx
  dsimp only at hx
  rw [tx_eq] at hx
  have hb0 : Hush ep (ep.begun m) := by
    unfold Ep.begun
    split <;> exact .same h rfl rfl rfl rfl
  have hb := hb0.trans (.note hb0.shut (e := .passed ep.nextId ep.n1 ep.t1 (ep.outgoing m)) (by simp [Traffic]))
  obtain ⟨⟨ep1, m1, rc⟩, h1, h2⟩ := Res.bind_eq_ok hx
  obtain ⟨e1, e2⟩ := sendMsg_still hb.shut h1
  dsimp only at e1 e2 h2
  subst e1
  cases rc with
  | none => exact absurd rfl e2
  | some e =>
    dsimp only at h2
    obtain ⟨ep2, h3, h4⟩ := Res.bind_eq_ok h2
    obtain ⟨ep3, h5, h6⟩ := Res.bind_eq_ok h4
    have s2 := failCb_still hcb _ _ hb.shut h3
    have s3 := releaseUses_still _ _ s2.shut h5
    cases h6
    have s4 : Hush ep3 (ep3.note (.freed ep.nextId)) := .note s3.shut (by simp [Traffic])
    exact (((hb.trans s2).trans s3).trans s4).trans (.note s4.shut (by simp [Traffic]))

theorem txDirect_still {m io why} : Hushes fun ep => ep.txDirect m io why := by
  intro ep ep' h hx
  obtain ⟨⟨ep1, m1, rc⟩, h1, h2⟩ := Res.bind_eq_ok hx
  obtain ⟨e1, -⟩ := sendMsg_still (h.same (ep' := { ep with nextId := ep.nextId + 1 }) rfl rfl rfl) h1
  cases h2
  dsimp only at e1
  subst e1
  exact .same h rfl rfl rfl rfl

theorem txHeartbeat_still {remote io} : Hushes fun ep => ep.txHeartbeat remote io := by
  intro ep ep' h hx
  have h0 : Hush ep (ep.draw (heartbeatReq remote ep.rts)).1 := .same h rfl rfl rfl rfl
  exact h0.trans (txDirect_still _ _ h0.shut hx)

theorem close_still' {ep ep' : Ep} (hx : ep.close = .ok ep') : Shut ep' := by
  unfold Ep.close at hx
  split at hx
  · cases hx
  obtain ⟨ep1, h1, h2⟩ := Res.bind_eq_ok hx
  cases h2
  exact ⟨rfl, rfl, rfl⟩

theorem close_still : Hushes Ep.close := by
  intro ep ep' h hx
  refine ⟨close_still' hx, ?_⟩
  unfold Ep.close at hx
  split at hx
  · cases hx
  obtain ⟨ep1, h1, h2⟩ := Res.bind_eq_ok hx
  cases h2
  obtain ⟨rfl, -⟩ := releaseUses_ok h1
  refine ⟨[], ?_, by simp⟩
  simp [Ep.closed, h.reqs, h.resps]

theorem assocResp_none_still {ctx} : Hushes fun ep => ep.assocResp ctx none .ok := by
  intro ep ep' h hx
  dsimp only [Ep.assocResp] at hx
  split at hx
  · cases hx
  split at hx
  · cases hx
  cases hx
  exact peerChg_still h _ _

theorem assocStart_still {fi p io} : Hushes fun ep => ep.assocStart fi p io := by
  intro ep ep' h hx
  dsimp only [Ep.assocStart] at hx
  split at hx
  · cases hx; exact .refl h
  have h1 := peerChg_still h fi .waitAssoc
  obtain ⟨ep1, h2, h3⟩ := Res.bind_eq_ok hx
  have h4 : Hush ep ((ep.peerChg fi .waitAssoc).takeUses (assocReq p (ep.peerChg fi .waitAssoc).rts).ctx.uses) :=
    h1.trans (.same h1.shut rfl rfl rfl rfl)
  have h5 := h4.trans (tx_still assocResp_none_still _ _ h4.shut h2)
  cases h3
  split
  · exact h5.trans (peerChg_still h5.shut _ _)
  · exact h5

theorem associate_still {fi io} : Hushes fun ep => ep.associate fi io := by
  intro ep ep' h hx
  dsimp only [Ep.associate] at hx
  split at hx
  · cases hx; exact .refl h
  split at hx
  · exact assocStart_still _ _ h hx
  · cases hx; exact .refl h

theorem peerTimer_still {fi io} : Hushes fun ep => ep.peerTimer fi io := by
  intro ep ep' h hx
  dsimp only [Ep.peerTimer] at hx
  split at hx
  · cases hx; exact .refl h
  split at hx
  · cases hx; exact .refl h
  split at hx
  · rename_i p _ _ _
    have h1 : Hush ep { ep with peers := setPeer ep.peers { p with timer := none } } := .same h rfl rfl rfl rfl
    exact h1.trans (assocStart_still _ _ h1.shut hx)
  · cases hx; exact .same h rfl rfl rfl rfl

theorem run_still : ∀ a, NeverBinds a → Hushes (App.run a) := by
  intro a
  induction a with
  | done => intro _ ep ep' h hx; cases hx; exact .refl h
  | tx m io onFail rest ih1 ih2 =>
    intro hn ep ep' h hx
    rw [App.run] at hx
    split at hx
    · cases hx
    obtain ⟨ep1, h1, h2⟩ := Res.bind_eq_ok hx
    have s0 : Hush ep (ep.takeUses m.ctx.uses) := .same h rfl rfl rfl rfl
    have s1 := s0.trans (tx_still (ih1 hn.1) _ _ s0.shut h1)
    exact s1.trans (ih2 hn.2 _ _ s1.shut h2)
  | txData m io rest ih =>
    intro hn ep ep' h hx
    obtain ⟨ep1, h1, h2⟩ := Res.bind_eq_ok hx
    have s1 := txDirect_still _ _ h h1
    exact s1.trans (ih hn _ _ s1.shut h2)
  | heartbeat remote io rest ih =>
    intro hn ep ep' h hx
    obtain ⟨ep1, h1, h2⟩ := Res.bind_eq_ok hx
    have s1 := txHeartbeat_still _ _ h h1
    exact s1.trans (ih hn _ _ s1.shut h2)
  | invalidate fi rest ih =>
    intro hn ep ep' h hx
    have s1 : Hush ep (ep.invalidate fi) := by
      refine ⟨⟨h.sock, ?_, ?_⟩, [_], rfl, ?_⟩
      · show ep.reqs.map _ = []; rw [h.reqs]; rfl
      · show ep.resps.map _ = []; rw [h.resps]; rfl
      · intro e he; simp at he; subst he; simp [Traffic]
    exact s1.trans (ih hn _ _ s1.shut hx)
  | setSeq s rest ih =>
    intro hn ep ep' h hx
    have s1 : Hush ep { ep with seq := s, resets := ep.resets + 1 } := .same h rfl rfl rfl rfl
    exact s1.trans (ih hn _ _ s1.shut hx)
  | setTimers n1 t1 k rest ih =>
    intro hn ep ep' h hx
    have s1 : Hush ep ({ ep with n1 := n1, t1 := t1, keepResp := k }.note (.config n1 t1 k)) :=
      ⟨h.same rfl rfl rfl, [_], rfl, by intro e he; simp at he; subst he; simp [Traffic]⟩
    exact s1.trans (ih hn _ _ s1.shut hx)
  | close rest ih =>
    intro hn ep ep' h hx
    obtain ⟨ep1, h1, h2⟩ := Res.bind_eq_ok hx
    have s1 := close_still _ _ h h1
    exact s1.trans (ih hn _ _ s1.shut h2)
  | bind ok rest ih => intro hn; cases hn
  | setT26 t rest ih =>
    intro hn ep ep' h hx
    have s1 : Hush ep ({ ep with t26 := t }.note (.configT26 t)) :=
      ⟨h.same rfl rfl rfl, [_], rfl, by intro e he; simp at he; subst he; simp [Traffic]⟩
    exact s1.trans (ih hn _ _ s1.shut hx)
  | newPeer fi remote rest ih =>
    intro hn ep ep' h hx
    have s1 : Hush ep (ep.newPeer fi remote) := by
      unfold Ep.newPeer
      split
      · exact .refl h
      · exact .same h rfl rfl rfl rfl
    exact s1.trans (ih hn _ _ s1.shut hx)
  | setAssocCb fi cb rest ih =>
    intro hn ep ep' h hx
    have s1 : Hush ep (ep.setAssocCb fi cb) := by
      unfold Ep.setAssocCb
      split
      · exact .refl h
      · exact ⟨h.same rfl rfl rfl, [_], rfl, by intro e he; simp at he; subst he; simp [Traffic]⟩
    exact s1.trans (ih hn _ _ s1.shut hx)
  | associate fi io rest ih =>
    intro hn ep ep' h hx
    obtain ⟨ep1, h1, h2⟩ := Res.bind_eq_ok hx
    have s1 := associate_still _ _ h h1
    exact s1.trans (ih hn _ _ s1.shut h2)

theorem step_still (op : Op) (hn : NoBind op) : Hushes op.step := by
  intro ep ep' h hx
  cases op with
  | app a => exact run_still a hn _ _ h hx
  | rx remote d rs =>
    dsimp only [Op.step, Ep.rxDatagram] at hx
    rw [if_pos (by simp [h.sock])] at hx
    cases hx; exact .refl h
  | advance ms => cases hx; exact .same h rfl rfl rfl rfl
  | reqTimer id io onFail =>
    simp only [Op.step, Ep.reqTimer, h.reqs, List.find?_nil] at hx
    cases hx; exact .refl h
  | respTimer id =>
    simp only [Op.step, Ep.respTimer, h.resps, List.find?_nil] at hx
    cases hx; exact .refl h
  | peerTimer fi io => exact peerTimer_still _ _ h hx

theorem exec_still : ∀ ops, (∀ op ∈ ops, NoBind op) → Hushes (exec ops)
  | [], _ => by intro ep ep' h hx; cases hx; exact .refl h
  | op :: ops, hn => by
    intro ep ep' h hx
    obtain ⟨ep1, h1, h2⟩ := Res.bind_eq_ok hx
    have s1 := step_still op (hn _ (by simp)) _ _ h h1
    exact s1.trans (exec_still ops (fun o ho => hn o (by simp [ho])) _ _ s1.shut h2)

namespace Props

/-- What is claimed of an endpoint `ep0` that was just closed or created, or could not be bound. -/
def SilentFrom (ep0 : Ep) : Prop :=
  ∀ ops ep, (∀ op ∈ ops, NoBind op) → exec ops ep0 = .ok ep →
    (∃ l, ep.log = l ++ ep0.log ∧ ∀ e ∈ l, ¬ Traffic e) ∧ ep.isBusy = false

theorem Shut.silent {ep0 : Ep} (h : Shut ep0) : SilentFrom ep0 := by
  intro ops ep hn hx
  have := exec_still ops hn _ _ h hx
  exact ⟨this.log, by simp [Ep.isBusy, this.shut.reqs, this.shut.resps]⟩

/-- C76: after osmo_pfcp_endpoint_close(), there is no traffic and nothing is queued until the endpoint is bound,
whatever happens. -/
theorem C76_closed {ep ep0 : Ep} (h : ep.close = .ok ep0) : SilentFrom ep0 := Shut.silent (close_still' h)

/-- C76: nor is there before the endpoint is bound for the first time. -/
theorem C76_created (cfg n1 t1 keepResp unixTime now) : SilentFrom (Ep.create cfg n1 t1 keepResp unixTime now) :=
  Shut.silent ⟨rfl, rfl, rfl⟩

/-- C76: nor is there if it could not be bound, or the application has no rx_msg_cb(). -/
theorem C76_not_bound {ep ep0 : Ep} {ok} (h : ep.bind ok = .ok ep0) (hn : ok = false ∨ ep.cfg.hasRx = false) :
    SilentFrom ep0 := by
  obtain ⟨ep1, h1, h2⟩ := Res.bind_eq_ok h
  have hs := close_still' h1
  refine Shut.silent ?_
  have hc : ep1.cfg = ep.cfg := by
    unfold Ep.close at h1
    split at h1
    · cases h1
    obtain ⟨ep2, h3, h4⟩ := Res.bind_eq_ok h1
    cases h4
    obtain ⟨rfl, -⟩ := releaseUses_ok h3
    rfl
  cases h2
  refine ⟨?_, hs.reqs, hs.resps⟩
  rcases hn with rfl | hn
  · simp
  · simp [hc, hn]

/-- C76: osmo_pfcp_endpoint_bind() discards what was queued, as osmo_pfcp_endpoint_close() does: each message is
freed, and nothing is sent. -/
theorem C76_bind_discards {ep ep0 : Ep} {ok} (h : ep.bind ok = .ok ep0) :
    ep0.isBusy = false ∧ (∀ e ∈ ep.reqs ++ ep.resps, Event.freed e.id ∈ ep0.log) ∧
    ∃ l, ep0.log = l ++ ep.log ∧ ∀ e ∈ l, ¬ Traffic e := by
  obtain ⟨ep1, h1, h2⟩ := Res.bind_eq_ok h
  have hs := close_still' h1
  cases h2
  refine ⟨by simp [Ep.isBusy, hs.reqs, hs.resps], ?_⟩
  unfold Ep.close at h1
  split at h1
  · cases h1
  obtain ⟨ep2, h3, h4⟩ := Res.bind_eq_ok h1
  cases h4
  obtain ⟨rfl, -⟩ := releaseUses_ok h3
  refine ⟨?_, _, rfl, ?_⟩
  · intro e he
    refine List.mem_append_left _ (List.mem_reverse.2 (List.mem_flatten.2 ⟨[.dropped e.id, .freed e.id], ?_, by simp⟩))
    exact List.mem_map.2 ⟨e, he, rfl⟩
  · intro e he
    obtain ⟨l, hl, hm⟩ := List.mem_flatten.1 (List.mem_reverse.1 he)
    obtain ⟨q, -, rfl⟩ := List.mem_map.1 hl
    simp at hm
    rcases hm with rfl | rfl <;> simp [Traffic]

/-- C76: an endpoint that is bound does send: the hypotheses above matter. -/
theorem C76_bound {ep ep0 : Ep} (h : ep.bind true = .ok ep0) (hr : ep.cfg.hasRx = true) (m : PMsg) {o}
    (he : m.encode = .ok o) :
    ∃ ep', exec [.app (.txData m true .done)] ep0 = .ok ep' ∧
      ep'.log = .send .direct ep0.nextId m.remote o true ep0.now :: ep0.log := by
  obtain ⟨ep1, h1, h2⟩ := Res.bind_eq_ok h
  have hc : ep1.cfg = ep.cfg := by
    unfold Ep.close at h1
    split at h1
    · cases h1
    obtain ⟨ep2, h3, h4⟩ := Res.bind_eq_ok h1
    cases h4
    obtain ⟨rfl, -⟩ := releaseUses_ok h3
    rfl
  cases h2
  simp [exec, Op.step, App.run, Ep.txDirect, Ep.sendMsg, he, hc, hr, Res.bind, Ep.note]

/-- A request is sent; then the endpoint is closed; the request is freed without its resp_cb() being called; nothing is
retransmitted, a response that arrives is not handled. -/
example : obs 0 (exec (exSend ++ [.app (.close .done)] ++ exTimer ++ exResp) exEp) =
    some ([(exRemote, exOctets)], [], 1, 1, [], []) := by
  set_option maxRecDepth 100000 in rfl

/-- Another request fails at once, which its resp_cb() is told, and is freed. -/
example : obs 1 (exec (exSend ++ [.app (.close .done), .app (.tx exReq true .done .done)]) exEp) =
    some ([], [none], 1, 0, [], []) := by
  set_option maxRecDepth 100000 in rfl

end Props
end Verif
