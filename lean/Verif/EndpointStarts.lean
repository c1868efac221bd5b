/-
Who makes a CP peer begin to associate.
-/
import Verif.EndpointMoves

namespace Verif
open Spec

/-- Events that are not the beginning of this CP peer's association. -/
def elsewhere (fi : Nat) : Event → Bool
  | .peer f (.state .waitAssoc) => decide (f ≠ fi)
  | _ => true

theorem starts_cons {fi e} (h : elsewhere fi e = true) (l) : starts fi (e :: l) = starts fi l := by
  cases e with
  | peer f e =>
    cases e with
    | state s =>
      cases s <;> try rfl
      have h : f ≠ fi := by simpa [elsewhere] using h
      simp [starts, h]
    | _ => rfl
  | _ => rfl

/-- The number of times that it began. -/
structure Begun (fi n : Nat) (log : List Event) : Prop where
  eq : starts fi log = n

theorem Begun.cons {fi n log} (h : Begun fi n log) {e} (he : elsewhere fi e = true) : Begun fi n (e :: log) := ⟨(starts_cons he log).trans h.eq⟩

theorem Begun.append {fi n log} (h : Begun fi n log) : ∀ {l : List Event}, (∀ e ∈ l, elsewhere fi e = true) → Begun fi n (l ++ log)
  | [], _ => h
  | e :: l, hl => (Begun.append h fun x hx => hl x (.tail _ hx)).cons (hl e (.head _))

theorem idle_elsewhere {fi e} (h : idle e = true) : elsewhere fi e = true := by
  cases e with
  | peer f e => cases h
  | _ => rfl

/-- It keeps this number. -/
def KeepsBegun (fi : Nat) (f : Ep → Res Ep) : Prop := ∀ ep ep' n, Begun fi n ep.log → f ep = .ok ep' → Begun fi n ep'.log

theorem ok_keepsBegun {fi} : KeepsBegun fi .ok := by intro ep ep' n h hx; cases hx; exact h

theorem sendMsg_begun {fi n : Nat} {ep : Ep} {why id m io r} (h : ep.sendMsg why id m io = .ok r) (hm : Begun fi n ep.log) : Begun fi n r.1.log := by
  rcases sendMsg_ok h with ⟨o, _, _, _, rfl⟩ | ⟨l, e, enc, hl, _, rfl⟩
  · exact hm.cons rfl
  · rcases hl with ⟨rfl, _⟩ | ⟨o, _, rfl⟩
    · exact hm
    · exact hm.cons rfl

theorem tx_begun {ep ep' : Ep} {m : PMsg} {io cb fi n} (hm : Begun fi n ep.log) (hcb : KeepsBegun fi cb)
    (ht : ep.tx m io cb = .ok ep') : Begun fi n ep'.log := by
  obtain ⟨ep1, o, ⟨l, h1, hl⟩, hc⟩ := tx_cases ht
  have hb : Begun fi n ep1.log := by
    rw [h1]
    refine Begun.append ?_ fun e he => idle_elsewhere (hl e he)
    exact Begun.cons (e := .passed ..) (by simpa using hm) rfl
  have fail : ∀ {ep2}, ep1.failCb ep.nextId { ep.outgoing m with encoded := o } cb = .ok ep2 → Begun fi n ep2.log := by
    intro ep2 h2
    rcases failCb_ok h2 with ⟨ep3, h3, rfl⟩ | ⟨_, rfl⟩
    · exact (hcb { ep1.note (.respCb ep.nextId none ep1.now) with busy := ep.nextId :: ep1.busy } ep3 n (Begun.cons (e := .respCb ..) hb rfl) h3 :)
    · exact hb
  rcases hc with ⟨ep2, ep3, e, h2, h3, rfl⟩ | ⟨ep2, h2, rfl⟩ | rfl
  · have := fail h2
    rw [← releaseUses_log h3] at this
    exact (this.cons rfl).cons rfl
  · exact (fail h2).cons rfl
  · refine Begun.cons (e := .returned ep.nextId none) ?_ rfl
    rw [enqueue_log]
    exact hb

theorem assocStart_begun {ep ep' : Ep} {fi p io f n} (hne : fi ≠ f) (hm : Begun f n ep.log) (hp : ep.peer? fi = some p)
    (ha : ep.assocStart fi p io = .ok ep') : Begun f n ep'.log := by
  unfold Ep.assocStart at ha
  split at ha
  · cases ha; exact hm
  rename_i hper
  have hper : p.state.permits .waitAssoc = true := by simpa using hper
  have hfi := peer?_fi hp
  dsimp only at ha
  obtain ⟨ep9, ht, ha⟩ := Res.bind_eq_ok ha
  cases ha
  have hp1 : (ep.peerChg fi .waitAssoc).peer? fi = some (p.enter .waitAssoc ep.now ep.t26) := by
    rw [peerChg_some hp hper]
    exact setPeer_peer? (ep := ep) hp hfi rfl
  have hl1 : (ep.peerChg fi .waitAssoc).log = .peer fi (.state .waitAssoc) :: ep.log := by rw [peerChg_some hp hper]; rfl
  generalize ep.peerChg fi .waitAssoc = ep1 at ht hp1 hl1
  have hr0 : (assocReq p ep1.rts).isResponse = false := rfl
  have hcb0 : (assocReq p ep1.rts).hasCb = true := rfl
  have htype : (assocReq p ep1.rts).h.type = 5 := rfl
  have hctx := assocReq_ctx p ep1.rts
  rw [hfi] at hctx
  generalize assocReq p ep1.rts = m at ht hr0 hcb0 htype hctx
  obtain ⟨ep2, o, ⟨l, h2, hl⟩, hc⟩ := tx_cases ht
  have hlog2 : ep2.log = l ++ .passed ep1.nextId ep1.n1 ep1.t1 ((ep1.takeUses m.ctx.uses).outgoing m) ::
      .peer fi (.state .waitAssoc) :: ep.log := by
    rw [h2]
    simp only [Ep.logs, Ep.note, begun_log]
    congr 2
  have hb : Begun f n ep2.log := by
    rw [hlog2]
    refine Begun.append ?_ fun e he => idle_elsewhere (hl e he)
    exact ((hm.cons (e := .peer fi (.state .waitAssoc)) (by simpa [elsewhere] using hne)).cons (e := .passed ..) rfl :)
  have hps2 : ep2.peers = ep1.peers := by
    rw [h2]
    show ((ep1.takeUses m.ctx.uses).begun m).peers = _
    rw [begun_peers]; rfl
  have hp2 : ep2.peer? fi = some (p.enter .waitAssoc ep.now ep.t26) := (peer?_eq hps2 fi).trans hp1
  have fail : ∀ {ep3}, ep2.failCb ep1.nextId { (ep1.takeUses m.ctx.uses).outgoing m with encoded := o }
      (fun ep => ep.assocResp m.ctx none .ok) = .ok ep3 →
      Begun f n ep3.log ∧ ∃ q, ep3.peer? fi = some q ∧ q.state = .waitRetry := by
    intro ep3 h3
    rcases failCb_ok h3 with ⟨ep4, h4, rfl⟩ | ⟨hc, _⟩
    · unfold Ep.assocResp at h4
      rw [hctx] at h4
      dsimp only at h4
      have hp2' : Ep.peer? { ep2.note (.respCb ep1.nextId none ep2.now) with busy := ep1.nextId :: ep2.busy } fi =
        some (p.enter .waitAssoc ep.now ep.t26) := hp2
      rw [hp2'] at h4
      dsimp only at h4
      cases h4
      rw [peerChg_some hp2' (by rw [enter_state]; rfl)]
      exact ⟨(Begun.cons (e := .peer fi (.state .waitRetry)) (Begun.cons (e := .respCb ep1.nextId none ep2.now) hb rfl) rfl :), _,
        setPeer_peer? hp2' (by simpa [Peer.enter] using hfi) rfl, rfl⟩
    · exfalso
      apply hc
      refine ⟨?_, ?_⟩
      · show ((ep1.takeUses m.ctx.uses).outgoing m).isResponse = false
        rw [outgoing_isResponse]; exact hr0
      · show ((ep1.takeUses m.ctx.uses).outgoing m).ctx.respCb.isSome = true
        rw [outgoing_ctx, hctx]; rfl
  rcases hc with ⟨ep3, ep4, e, h3, h4, rfl⟩ | ⟨ep3, h3, rfl⟩ | rfl
  · obtain ⟨f1, q, f2, f3⟩ := fail h3
    show Begun f n (if txFailed _ then _ else _ : Ep).log
    rw [if_pos (by simp [txFailed, Ep.note]), peerChg_refused (p := q) (by obtain ⟨rfl, _⟩ := releaseUses_ok h4; exact f2) (by rw [f3]; rfl)]
    rw [← releaseUses_log h4] at f1
    exact (f1.cons rfl).cons rfl
  · show Begun f n (if txFailed _ then _ else _ : Ep).log
    rw [if_neg (by simp [txFailed, Ep.note])]
    exact (fail h3).1.cons rfl
  · show Begun f n (if txFailed _ then _ else _ : Ep).log
    rw [if_neg (by simp [txFailed, Ep.note])]
    refine Begun.cons (e := .returned ep1.nextId none) ?_ rfl
    rw [enqueue_log]
    exact hb

theorem associate_begun {ep ep' : Ep} {fi io f n} (hne : fi ≠ f) (hm : Begun f n ep.log) (ha : ep.associate fi io = .ok ep') : Begun f n ep'.log := by
  unfold Ep.associate at ha
  split at ha
  · cases ha; exact hm
  · rename_i p hp
    split at ha
    · exact assocStart_begun hne hm hp ha
    · cases ha; exact hm

theorem txDirect_begun {fi n : Nat} {ep ep' : Ep} {m io why} (hm : Begun fi n ep.log) (h : ep.txDirect m io why = .ok ep') : Begun fi n ep'.log := by
  obtain ⟨r, h1, h2⟩ := Res.bind_eq_ok h
  cases h2
  exact sendMsg_begun h1 hm

theorem close_begun {fi n : Nat} {ep ep' : Ep} (hm : Begun fi n ep.log) (h : ep.close = .ok ep') : Begun fi n ep'.log := by
  unfold Ep.close at h
  split at h
  · cases h
  · obtain ⟨ep1, h1, h2⟩ := Res.bind_eq_ok h
    cases h2
    refine Begun.append ?_ ?_
    · rw [releaseUses_log h1]; exact hm
    · intro e he
      simp only [List.mem_reverse, List.mem_flatten, List.mem_map] at he
      obtain ⟨l, ⟨x, _, rfl⟩, he⟩ := he
      simp only [List.mem_cons, List.not_mem_nil, or_false] at he
      rcases he with rfl | rfl <;> rfl

theorem run_begun {fi} (a : App) (ha : a.spares fi = true) : KeepsBegun fi a.run := by
  induction a with
  | done => exact ok_keepsBegun
  | tx m io onFail rest ih1 ih2 =>
    intro ep ep' n hm h
    simp only [App.spares, Bool.and_eq_true] at ha
    simp only [App.run] at h
    split at h
    · cases h
    · obtain ⟨ep1, h1, h⟩ := Res.bind_eq_ok h
      exact ih2 ha.2 _ _ n (tx_begun (ep := ep.takeUses m.ctx.uses) hm (ih1 ha.1) h1) h
  | txData m io rest ih =>
    intro ep ep' n hm h
    obtain ⟨ep1, h1, h⟩ := Res.bind_eq_ok h
    exact ih ha _ _ n (txDirect_begun hm h1) h
  | heartbeat r io rest ih =>
    intro ep ep' n hm h
    obtain ⟨ep1, h1, h⟩ := Res.bind_eq_ok h
    exact ih ha _ _ n (txDirect_begun (ep := (ep.draw (heartbeatReq r ep.rts)).1) hm h1) h
  | invalidate f rest ih => intro ep ep' n hm h; exact ih ha _ _ n (Begun.cons (e := .invalidated f) hm rfl) h
  | setSeq s rest ih => intro ep ep' n hm h; exact ih ha { ep with seq := s, resets := ep.resets + 1 } _ n hm h
  | setTimers n1 t1 kr rest ih =>
    intro ep ep' n hm h
    exact ih ha _ _ n (Begun.cons (e := .config n1 t1 kr) hm rfl) h
  | close rest ih =>
    intro ep ep' n hm h
    obtain ⟨ep1, h1, h⟩ := Res.bind_eq_ok h
    exact ih ha _ _ n (close_begun hm h1) h
  | bind ok rest ih =>
    intro ep ep' n hm h
    obtain ⟨ep1, h1, h⟩ := Res.bind_eq_ok h
    obtain ⟨ep2, h2, h1⟩ := Res.bind_eq_ok h1
    cases h1
    exact ih ha { ep2 with sock := ep2.cfg.hasRx && ok } _ n (close_begun hm h2 :) h
  | setT26 t rest ih =>
    intro ep ep' n hm h
    exact ih ha _ _ n (Begun.cons (e := .configT26 t) hm rfl) h
  | newPeer f r rest ih =>
    intro ep ep' n hm h
    refine ih ha _ _ n ?_ h
    unfold Ep.newPeer
    split <;> exact hm
  | setAssocCb f cb rest ih =>
    intro ep ep' n hm h
    refine ih ha _ _ n ?_ h
    unfold Ep.setAssocCb
    split
    · exact hm
    · exact Begun.cons (e := .peer f (.cbSet cb)) hm rfl
  | associate f io rest ih =>
    intro ep ep' n hm h
    simp only [App.spares, Bool.and_eq_true, decide_eq_true_eq] at ha
    obtain ⟨ep1, h1, h⟩ := Res.bind_eq_ok h
    exact ih ha.2 _ _ n (associate_begun ha.1 hm h1) h

theorem peerChg_begun {ep : Ep} {fi n f s} (hm : Begun fi n ep.log) (hs : s ≠ .waitAssoc) : Begun fi n (ep.peerChg f s).log := by
  unfold Ep.peerChg
  split
  · exact hm
  · split
    · refine Begun.cons (e := .peer f (.state s)) hm ?_
      cases s <;> first | rfl | exact absurd rfl hs
    · exact hm

theorem assocResp_begun {ep ep' : Ep} {ctx : Ctx} {resp : Option PMsg} {cb fi n} (hm : Begun fi n ep.log)
    (hcb : KeepsBegun fi cb) (h : ep.assocResp ctx resp cb = .ok ep') : Begun fi n ep'.log := by
  unfold Ep.assocResp at h
  split at h
  · cases h
  rename_i f hf
  split at h
  · cases h
  rename_i p hp
  split at h
  · cases h
    exact peerChg_begun hm nofun
  · split at h
    · cases h
      exact peerChg_begun hm nofun
    split at h
    · cases h; exact hm
    dsimp only at h
    split at h
    · exact hcb _ _ n (Begun.cons (e := .peer f (.assocCb true)) (peerChg_begun (s := .associated) (f := f) hm nofun) rfl) h
    · cases h; exact peerChg_begun hm nofun

theorem queueDel_begun {fi n : Nat} {ep ep' : Ep} {id} (hm : Begun fi n ep.log) (h : ep.queueDel id = .ok ep') : Begun fi n ep'.log := by
  obtain ⟨ep1, h1, h2⟩ := Res.bind_eq_ok h
  cases h2
  refine Begun.cons (e := .freed id) ?_ rfl
  rw [releaseUses_log h1]
  exact hm

theorem retrans_begun {fi n : Nat} {ep : Ep} {e io x} (hm : Begun fi n ep.log) (h : ep.retrans e io = .ok x) : Begun fi n x.1.log := by
  unfold Ep.retrans at h
  split at h
  · cases h; exact hm
  · obtain ⟨⟨ep2, m2, rc⟩, h2, h1⟩ := Res.bind_eq_ok h
    have := sendMsg_begun h2 hm
    cases rc <;> cases h1 <;> exact this

theorem reqTimer_begun {ep ep' : Ep} {id io fi n} {cb} (hm : Begun fi n ep.log) (hcb : KeepsBegun fi cb)
    (hx : ep.reqTimer id io cb = .ok ep') : Begun fi n ep'.log := by
  unfold Ep.reqTimer at hx
  split at hx
  · cases hx; exact hm
  dsimp only at hx
  split at hx
  · cases hx; exact hm
  split at hx
  · cases hx
  rename_i e _ _ _
  obtain ⟨⟨ep1, keep⟩, h1, hx⟩ := Res.bind_eq_ok hx
  have hm1 : Begun fi n ep1.log := retrans_begun (ep := { ep with reqs := setEntry ep.reqs { e with timer := none } }) hm h1
  dsimp only at hx
  split at hx
  · cases hx; exact hm1
  obtain ⟨ep2, h2, hx⟩ := Res.bind_eq_ok hx
  split at hx
  rotate_left
  · cases hx
  refine queueDel_begun ?_ hx
  clear hx
  split at h2
  · obtain ⟨ep3, h3, h2⟩ := Res.bind_eq_ok h2
    cases h2
    have hm2 := Begun.cons hm1 (e := .respCb id none ep1.now) rfl
    show Begun fi n ep3.log
    split at h3
    · have h3 : Ep.assocResp _ e.m.ctx none .ok = .ok ep3 := h3
      exact assocResp_begun (hm2 :) ok_keepsBegun h3
    · have h3 : cb _ = .ok ep3 := h3
      exact hcb _ _ n (hm2 :) h3
  · cases h2; exact hm1

theorem respTimer_begun {fi n : Nat} {ep ep' : Ep} {id} (hm : Begun fi n ep.log) (hx : ep.respTimer id = .ok ep') : Begun fi n ep'.log := by
  unfold Ep.respTimer at hx
  split at hx
  · cases hx; exact hm
  split at hx
  · cases hx; exact hm
  split at hx
  · cases hx
  exact queueDel_begun hm hx

theorem setCtx_begun {ep ep' : Ep} {k req r fi n} (hr : r.spares fi = true) (hm : Begun fi n ep.log) (hx : ep.setCtx k req r = .ok ep') :
    Begun fi n ep'.log := by
  simp only [React.spares, Bool.and_eq_true] at hr
  unfold Ep.setCtx at hx
  split at hx
  · exact run_begun _ hr.1.1 _ _ n (Begun.cons (e := .setCtx k req) hm rfl) hx
  · cases hx; exact hm

theorem dispatch_begun {ep ep' : Ep} {k req r fi n} (hr : r.spares fi = true) (hm : Begun fi n ep.log) (hx : ep.dispatch k req r = .ok ep') :
    Begun fi n ep'.log := by
  simp only [React.spares, Bool.and_eq_true] at hr
  exact run_begun _ hr.2 _ _ n (Begun.cons (e := .dispatch k req) hm rfl) hx

theorem handleDuplicate_begun {ep ep' : Ep} {k prev r fi n} (hr : r.spares fi = true) (hm : Begun fi n ep.log)
    (hx : ep.handleDuplicate k prev r = .ok ep') : Begun fi n ep'.log := by
  obtain ⟨ep1, h1, hx⟩ := Res.bind_eq_ok hx
  obtain ⟨ep2, h2, h1⟩ := Res.bind_eq_ok h1
  cases h1
  have := setCtx_begun (ep := { ep with busy := prev.id :: ep.busy }) hr hm h2
  dsimp only at hx
  split at hx
  · cases hx
  · obtain ⟨x, h3, hx⟩ := Res.bind_eq_ok hx
    cases hx
    exact sendMsg_begun h3 this

theorem handleResponse_begun {ep ep' : Ep} {k m prev r fi n} (hr : r.spares fi = true) (hm : Begun fi n ep.log)
    (hx : ep.handleResponse k m prev r = .ok ep') : Begun fi n ep'.log := by
  obtain ⟨ep1, h1, hx⟩ := Res.bind_eq_ok hx
  obtain ⟨ep2, h2, he1⟩ := Res.bind_eq_ok h1
  cases he1
  dsimp only at hx
  split at hx
  rotate_left
  · cases hx
  refine queueDel_begun (ep := { ep2 with busy := ep.busy }) ?_ hx
  obtain ⟨ep3, h3, h2⟩ := Res.bind_eq_ok h2
  have hm3 := setCtx_begun (ep := { ep with busy := prev.id :: ep.busy }) hr hm h3
  have hrr : r.onResp.spares fi = true := by
    simp only [React.spares, Bool.and_eq_true] at hr
    exact hr.1.2
  split at h2
  · obtain ⟨⟨ep4, rc⟩, h4, h2⟩ := Res.bind_eq_ok h2
    dsimp only at h2
    have hm4 : Begun fi n ep4.log := by
      unfold Ep.respCall at h4
      split at h4
      · split at h4
        · cases h4
        obtain ⟨ep5, h5, h4⟩ := Res.bind_eq_ok h4
        cases h4
        exact assocResp_begun (Begun.cons hm3 (e := .respCb prev.id (some k) ep3.now) rfl) (run_begun _ hrr) h5
      · obtain ⟨ep5, h5, h4⟩ := Res.bind_eq_ok h4
        cases h4
        exact run_begun _ hrr _ _ n (Begun.cons hm3 (e := .respCb prev.id (some k) ep3.now) rfl) h5
    split at h2
    · cases h2; exact hm4
    · exact (dispatch_begun hr hm4 h2 :)
  · exact (dispatch_begun hr hm3 h2 :)

theorem handleRx_begun {ep ep' : Ep} {m r fi n} (hr : r.spares fi = true) (hm : Begun fi n ep.log) (hx : ep.handleRx m r = .ok ep') :
    Begun fi n ep'.log := by
  unfold Ep.handleRx at hx
  obtain ⟨ep1, h1, hx⟩ := Res.bind_eq_ok hx
  obtain ⟨ep2, h2, hx⟩ := Res.bind_eq_ok hx
  rw [releaseUses_log hx]
  have hm0 : Begun fi n ({ ep with nextId := ep.nextId + 1 }.note (.received ep.nextId m)).log := Begun.cons hm rfl
  have hb1 : Begun fi n ep1.log := by
    unfold Ep.heartbeatReply at h1
    split at h1
    · obtain ⟨⟨ep3, m3, rc⟩, h3, h1⟩ := Res.bind_eq_ok h1
      cases h1
      exact sendMsg_begun h3 hm0
    · cases h1; exact hm0
  unfold Ep.handleMsg at h2
  split at h2
  · by_cases hrm : m.isResponse = true
    · rw [if_pos hrm] at h2
      exact handleResponse_begun hr hb1 h2
    · rw [if_neg hrm] at h2
      exact handleDuplicate_begun hr hb1 h2
  · obtain ⟨ep3, h3, h2⟩ := Res.bind_eq_ok h2
    exact dispatch_begun hr (setCtx_begun hr hb1 h3) h2

theorem handleAll_begun {remote fi n} : ∀ {l : List Rx} {rs} {ep ep' : Ep}, (∀ r ∈ rs, React.spares fi r = true) → Begun fi n ep.log →
    ep.handleAll remote l rs = .ok ep' → Begun fi n ep'.log
  | [], _, ep, ep', _, hm, hx => by cases hx; exact hm
  | ⟨_, none⟩ :: l, rs, ep, ep', h, hm, hx => handleAll_begun (l := l) h hm hx
  | ⟨d, some ies⟩ :: l, rs, ep, ep', h, hm, hx => by
    obtain ⟨ep1, h1, hx⟩ := Res.bind_eq_ok hx
    refine handleAll_begun (fun r hr => h r (List.mem_of_mem_tail hr)) (handleRx_begun ?_ hm h1) hx
    cases rs with
    | nil => rfl
    | cons r rs => exact h r (.head _)

/-- Events of histories that do not concern the CP peer. -/
theorem step_begun {ep ep' : Ep} {op : Op} {fi n} (h : Both [] [] none none ep) (ho : op.spares fi = true) (hm : Begun fi n ep.log) (hx : op.step ep = .ok ep') :
    Begun fi n ep'.log := by
  cases op with
  | app a => exact run_begun a ho _ _ n hm hx
  | rx remote d rs =>
    have hx : ep.rxDatagram remote d rs = .ok ep' := hx
    unfold Ep.rxDatagram at hx
    dsimp only at hx
    split at hx
    · cases hx; exact hm
    split at hx
    · cases hx
    obtain ⟨l, _, hx⟩ := Res.bind_eq_ok hx
    exact handleAll_begun (List.all_eq_true.1 ho) hm hx
  | advance ms => cases hx; exact hm
  | reqTimer id io f => exact reqTimer_begun hm (run_begun f ho) hx
  | respTimer id => exact respTimer_begun hm hx
  | peerTimer f io =>
    have ho : f ≠ fi := by simpa [Op.spares] using ho
    have hx : ep.peerTimer f io = .ok ep' := hx
    rcases h.peer.peerTimer_eq f io with ⟨hy, _⟩ | ⟨p, hp, hs, _, hy⟩
    · rw [hy] at hx; cases hx; exact hm
    · rw [hy] at hx; exact assocStart_begun ho hm hp hx

end Verif
