/-
Between events, no call of resp_cb() is the latest thing that happened.
-/
import Verif.EndpointMoves

namespace Verif
open Spec

/-- The latest event is not a call of resp_cb(). -/
structure Settled (log : List Event) : Prop where
  head : ∀ id r t l, log ≠ .respCb id r t :: l

/-- Events that are not. -/
def unasked : Event → Bool
  | .respCb .. => false
  | _ => true

theorem settled_cons {e} (h : unasked e = true) (l) : Settled (e :: l) := ⟨fun id r t l' hl => by cases hl; cases h⟩

theorem Settled.append {log} (h : Settled log) : ∀ {l : List Event}, (∀ e ∈ l, unasked e = true) → Settled (l ++ log)
  | [], _ => h
  | e :: _, hl => settled_cons (hl e (.head _)) _

theorem sendMsg_settled {ep : Ep} {why id m io r} (h : ep.sendMsg why id m io = .ok r) (hm : Settled ep.log) : Settled r.1.log := by
  rcases sendMsg_ok h with ⟨o, _, _, _, rfl⟩ | ⟨l, e, enc, hl, _, rfl⟩
  · exact settled_cons rfl _
  · rcases hl with ⟨rfl, _⟩ | ⟨o, _, rfl⟩
    · exact hm
    · exact settled_cons rfl _

theorem tx_settled {ep ep' : Ep} {m : PMsg} {io cb} (ht : ep.tx m io cb = .ok ep') : Settled ep'.log := by
  obtain ⟨ep1, o, ⟨l, h1, hl⟩, hc⟩ := tx_cases ht
  rcases hc with ⟨ep2, ep3, e, h2, h3, rfl⟩ | ⟨ep2, h2, rfl⟩ | rfl
  · exact settled_cons rfl _
  · exact settled_cons rfl _
  · exact settled_cons rfl _

theorem peerChg_settled {ep : Ep} {f s} (hm : Settled ep.log) : Settled (ep.peerChg f s).log := by
  unfold Ep.peerChg
  split
  · exact hm
  · split
    · exact settled_cons rfl _
    · exact hm

theorem assocStart_settled {ep ep' : Ep} {fi p io} (hm : Settled ep.log) (ha : ep.assocStart fi p io = .ok ep') : Settled ep'.log := by
  unfold Ep.assocStart at ha
  split at ha
  · cases ha; exact hm
  dsimp only at ha
  obtain ⟨ep9, ht, ha⟩ := Res.bind_eq_ok ha
  cases ha
  have := tx_settled ht
  split
  · exact peerChg_settled this
  · exact this

theorem associate_settled {ep ep' : Ep} {fi io} (hm : Settled ep.log) (ha : ep.associate fi io = .ok ep') : Settled ep'.log := by
  unfold Ep.associate at ha
  split at ha
  · cases ha; exact hm
  · split at ha
    · exact assocStart_settled hm ha
    · cases ha; exact hm

theorem txDirect_settled {ep ep' : Ep} {m io why} (hm : Settled ep.log) (h : ep.txDirect m io why = .ok ep') : Settled ep'.log := by
  obtain ⟨r, h1, h2⟩ := Res.bind_eq_ok h
  cases h2
  exact sendMsg_settled h1 hm

theorem close_settled {ep ep' : Ep} (hm : Settled ep.log) (h : ep.close = .ok ep') : Settled ep'.log := by
  unfold Ep.close at h
  split at h
  · cases h
  · obtain ⟨ep1, h1, h2⟩ := Res.bind_eq_ok h
    cases h2
    refine Settled.append ?_ ?_
    · rw [releaseUses_log h1]; exact hm
    · intro e he
      simp only [List.mem_reverse, List.mem_flatten, List.mem_map] at he
      obtain ⟨l, ⟨x, _, rfl⟩, he⟩ := he
      simp only [List.mem_cons, List.not_mem_nil, or_false] at he
      rcases he with rfl | rfl <;> rfl

theorem run_settled (a : App) : ∀ ep ep', Settled ep.log → a.run ep = .ok ep' → Settled ep'.log := by
  induction a with
  | done => intro ep ep' hm h; cases h; exact hm
  | tx m io onFail rest ih1 ih2 =>
    intro ep ep' hm h
    simp only [App.run] at h
    split at h
    · cases h
    · obtain ⟨ep1, h1, h⟩ := Res.bind_eq_ok h
      exact ih2 _ _ (tx_settled h1) h
  | txData m io rest ih =>
    intro ep ep' hm h
    obtain ⟨ep1, h1, h⟩ := Res.bind_eq_ok h
    exact ih _ _ (txDirect_settled hm h1) h
  | heartbeat r io rest ih =>
    intro ep ep' hm h
    obtain ⟨ep1, h1, h⟩ := Res.bind_eq_ok h
    exact ih _ _ (txDirect_settled (ep := (ep.draw (heartbeatReq r ep.rts)).1) hm h1) h
  | invalidate f rest ih => intro ep ep' hm h; exact ih _ _ (settled_cons (e := .invalidated f) rfl _) h
  | setSeq s rest ih => intro ep ep' hm h; exact ih { ep with seq := s, resets := ep.resets + 1 } _ hm h
  | setTimers n1 t1 kr rest ih =>
    intro ep ep' hm h
    exact ih _ _ (settled_cons (e := .config n1 t1 kr) rfl _) h
  | close rest ih =>
    intro ep ep' hm h
    obtain ⟨ep1, h1, h⟩ := Res.bind_eq_ok h
    exact ih _ _ (close_settled hm h1) h
  | bind ok rest ih =>
    intro ep ep' hm h
    obtain ⟨ep1, h1, h⟩ := Res.bind_eq_ok h
    obtain ⟨ep2, h2, h1⟩ := Res.bind_eq_ok h1
    cases h1
    exact ih { ep2 with sock := ep2.cfg.hasRx && ok } _ (close_settled hm h2 :) h
  | setT26 t rest ih =>
    intro ep ep' hm h
    exact ih _ _ (settled_cons (e := .configT26 t) rfl _) h
  | newPeer f r rest ih =>
    intro ep ep' hm h
    refine ih _ _ ?_ h
    unfold Ep.newPeer
    split <;> exact hm
  | setAssocCb f cb rest ih =>
    intro ep ep' hm h
    refine ih _ _ ?_ h
    unfold Ep.setAssocCb
    split
    · exact hm
    · exact settled_cons (e := .peer f (.cbSet cb)) rfl _
  | associate f io rest ih =>
    intro ep ep' hm h
    obtain ⟨ep1, h1, h⟩ := Res.bind_eq_ok h
    exact ih _ _ (associate_settled hm h1) h

theorem queueDel_settled {ep ep' : Ep} {id} (h : ep.queueDel id = .ok ep') : Settled ep'.log := by
  obtain ⟨ep1, h1, h2⟩ := Res.bind_eq_ok h
  cases h2
  exact settled_cons rfl _

theorem retrans_settled {ep : Ep} {e io x} (hm : Settled ep.log) (h : ep.retrans e io = .ok x) : Settled x.1.log := by
  unfold Ep.retrans at h
  split at h
  · cases h; exact hm
  · obtain ⟨⟨ep2, m2, rc⟩, h2, h1⟩ := Res.bind_eq_ok h
    have := sendMsg_settled h2 hm
    cases rc <;> cases h1 <;> exact this

theorem reqTimer_settled {ep ep' : Ep} {id io} {cb} (hm : Settled ep.log) (hx : ep.reqTimer id io cb = .ok ep') : Settled ep'.log := by
  unfold Ep.reqTimer at hx
  split at hx
  · cases hx; exact hm
  dsimp only at hx
  split at hx
  · cases hx; exact hm
  split at hx
  · cases hx
  rename_i e _ _ _
  obtain ⟨⟨ep1, keep⟩, h1, hx⟩ := Res.bind_eq_ok hx
  have hm1 : Settled ep1.log := retrans_settled (ep := { ep with reqs := setEntry ep.reqs { e with timer := none } }) hm h1
  dsimp only at hx
  split at hx
  · cases hx; exact hm1
  obtain ⟨ep2, h2, hx⟩ := Res.bind_eq_ok hx
  split at hx
  rotate_left
  · cases hx
  exact queueDel_settled hx

theorem respTimer_settled {ep ep' : Ep} {id} (hm : Settled ep.log) (hx : ep.respTimer id = .ok ep') : Settled ep'.log := by
  unfold Ep.respTimer at hx
  split at hx
  · cases hx; exact hm
  split at hx
  · cases hx; exact hm
  split at hx
  · cases hx
  exact queueDel_settled hx

theorem setCtx_settled {ep ep' : Ep} {k req r} (hm : Settled ep.log) (hx : ep.setCtx k req r = .ok ep') : Settled ep'.log := by
  unfold Ep.setCtx at hx
  split at hx
  · exact run_settled _ _ _ (settled_cons (e := .setCtx k req) rfl _) hx
  · cases hx; exact hm

theorem dispatch_settled {ep ep' : Ep} {k req r} (hx : ep.dispatch k req r = .ok ep') : Settled ep'.log :=
  run_settled _ _ _ (settled_cons (e := .dispatch k req) rfl _) hx

theorem handleDuplicate_settled {ep ep' : Ep} {k prev r} (hm : Settled ep.log) (hx : ep.handleDuplicate k prev r = .ok ep') :
    Settled ep'.log := by
  obtain ⟨ep1, h1, hx⟩ := Res.bind_eq_ok hx
  obtain ⟨ep2, h2, h1⟩ := Res.bind_eq_ok h1
  cases h1
  have := setCtx_settled (ep := { ep with busy := prev.id :: ep.busy }) hm h2
  dsimp only at hx
  split at hx
  · cases hx
  · obtain ⟨x, h3, hx⟩ := Res.bind_eq_ok hx
    cases hx
    exact sendMsg_settled h3 this

theorem handleResponse_settled {ep ep' : Ep} {k m prev r} (hx : ep.handleResponse k m prev r = .ok ep') : Settled ep'.log := by
  obtain ⟨ep1, h1, hx⟩ := Res.bind_eq_ok hx
  split at hx
  rotate_left
  · cases hx
  exact queueDel_settled hx

theorem handleRx_settled {ep ep' : Ep} {m r} (hx : ep.handleRx m r = .ok ep') : Settled ep'.log := by
  unfold Ep.handleRx at hx
  obtain ⟨ep1, h1, hx⟩ := Res.bind_eq_ok hx
  obtain ⟨ep2, h2, hx⟩ := Res.bind_eq_ok hx
  rw [releaseUses_log hx]
  have hm0 : Settled ({ ep with nextId := ep.nextId + 1 }.note (.received ep.nextId m)).log := settled_cons rfl _
  have hb1 : Settled ep1.log := by
    unfold Ep.heartbeatReply at h1
    split at h1
    · obtain ⟨⟨ep3, m3, rc⟩, h3, h1⟩ := Res.bind_eq_ok h1
      cases h1
      exact sendMsg_settled h3 hm0
    · cases h1; exact hm0
  unfold Ep.handleMsg at h2
  split at h2
  · by_cases hrm : m.isResponse = true
    · rw [if_pos hrm] at h2
      exact handleResponse_settled h2
    · rw [if_neg hrm] at h2
      exact handleDuplicate_settled hb1 h2
  · obtain ⟨ep3, h3, h2⟩ := Res.bind_eq_ok h2
    exact dispatch_settled h2

theorem handleAll_settled {remote} : ∀ {l : List Rx} {rs} {ep ep' : Ep}, Settled ep.log → ep.handleAll remote l rs = .ok ep' → Settled ep'.log
  | [], _, ep, ep', hm, hx => by cases hx; exact hm
  | ⟨_, none⟩ :: l, rs, ep, ep', hm, hx => handleAll_settled (l := l) hm hx
  | ⟨d, some ies⟩ :: l, rs, ep, ep', hm, hx => by
    obtain ⟨ep1, h1, hx⟩ := Res.bind_eq_ok hx
    exact handleAll_settled (handleRx_settled h1) hx

theorem step_settled {ep ep' : Ep} {op : Op} (h : Both [] [] none none ep) (hm : Settled ep.log) (hx : op.step ep = .ok ep') :
    Settled ep'.log := by
  cases op with
  | app a => exact run_settled a _ _ hm hx
  | rx remote d rs =>
    have hx : ep.rxDatagram remote d rs = .ok ep' := hx
    unfold Ep.rxDatagram at hx
    dsimp only at hx
    split at hx
    · cases hx; exact hm
    split at hx
    · cases hx
    obtain ⟨l, _, hx⟩ := Res.bind_eq_ok hx
    exact handleAll_settled hm hx
  | advance ms => cases hx; exact hm
  | reqTimer id io f => exact reqTimer_settled hm hx
  | respTimer id => exact respTimer_settled hm hx
  | peerTimer f io =>
    have hx : ep.peerTimer f io = .ok ep' := hx
    rcases h.peer.peerTimer_eq f io with ⟨hy, _⟩ | ⟨p, hp, hs, _, hy⟩
    · rw [hy] at hx; cases hx; exact hm
    · rw [hy] at hx; exact assocStart_settled hm hx

theorem Reached.settled {ep : Ep} (h : Reached ep) : Settled ep.log := by
  induction h with
  | create cfg n1 t1 keepResp time now => exact settled_cons rfl _
  | op o h hx ih => exact step_settled h.both ih hx
  | rx m r h hx ih => exact handleRx_settled hx

end Verif
