/-
Every change of a CP peer's state has its cause in the history.
-/
import Verif.SpecMoves
import Verif.EndpointPeer2

namespace Verif
open Spec

/-- Events that are neither about a state nor about passing a message. -/
def unmoved : Event → Bool
  | .peer _ (.state _) => false
  | .passed .. => false
  | _ => true

theorem moveOk_unmoved {e} (h : unmoved e = true) (l) : MoveOk e l := by
  cases e with
  | peer fi e => cases e <;> first | trivial | cases h
  | passed => cases h
  | _ => trivial

theorem Spec.Moves.cons {log} (h : Moves log) {e} (he : unmoved e = true) : Moves (e :: log) :=
  ⟨⟨moveOk_unmoved he _, h.all⟩, fun _ _ hl => by cases hl; cases he⟩

theorem Spec.Moves.append {log} (h : Moves log) : ∀ {l : List Event}, (∀ e ∈ l, unmoved e = true) → Moves (l ++ log)
  | [], _ => h
  | e :: l, hl => (Spec.Moves.append h fun x hx => hl x (.tail _ hx)).cons (hl e (.head _))

theorem Spec.Moves.state {log fi s} (h : Moves log) (ho : MoveOk (.peer fi (.state s)) log) (hs : s ≠ .waitAssoc) :
    Moves (.peer fi (.state s) :: log) := ⟨⟨ho, h.all⟩, fun _ _ hl => by cases hl; exact hs rfl⟩

theorem Spec.AllMoves.passed {log id n1 t1 q} (h : AllMoves log) (ho : MoveOk (.passed id n1 t1 q) log) :
    Moves (.passed id n1 t1 q :: log) := ⟨⟨ho, h⟩, nofun⟩

theorem idle_unmoved {e} (h : idle e = true) : unmoved e = true := by
  cases e <;> first | rfl | cases h

/-- It keeps the property. -/
def KeepsMoves (f : Ep → Res Ep) : Prop := ∀ ep ep', Moves ep.log → f ep = .ok ep' → Moves ep'.log

theorem ok_keepsMoves : KeepsMoves .ok := by intro ep ep' h hx; cases hx; exact h

theorem releaseUses_log {us} {ep ep' : Ep} (h : ep.releaseUses us = .ok ep') : ep'.log = ep.log := by
  obtain ⟨rfl, _⟩ := releaseUses_ok h
  rfl

theorem sendMsg_moves {ep : Ep} {why id m io r} (h : ep.sendMsg why id m io = .ok r) (hm : Moves ep.log) : Moves r.1.log := by
  rcases sendMsg_ok h with ⟨o, _, _, _, rfl⟩ | ⟨l, e, enc, hl, _, rfl⟩
  · exact hm.cons rfl
  · rcases hl with ⟨rfl, _⟩ | ⟨o, _, rfl⟩
    · exact hm
    · exact hm.cons rfl

theorem enqueue_log (ep : Ep) (e : QEntry) : (ep.enqueue e).log = ep.log := by unfold Ep.enqueue; split <;> rfl

/-- osmo_pfcp_endpoint_tx() by the application. -/
theorem tx_moves {ep ep' : Ep} {m : PMsg} {io cb} (hm : Moves ep.log) (ha : m.ctx.respCb ≠ some Cb.assoc) (hcb : KeepsMoves cb)
    (ht : ep.tx m io cb = .ok ep') : Moves ep'.log := by
  obtain ⟨ep1, o, ⟨l, h1, hl⟩, hc⟩ := tx_cases ht
  have hb : Moves ep1.log := by
    rw [h1]
    refine Spec.Moves.append ?_ fun e he => idle_unmoved (hl e he)
    refine Spec.AllMoves.passed (by simpa using hm.all) ?_
    intro hx
    rw [outgoing_ctx] at hx
    exact absurd hx ha
  have fail : ∀ {ep2}, ep1.failCb ep.nextId { ep.outgoing m with encoded := o } cb = .ok ep2 → Moves ep2.log := by
    intro ep2 h2
    rcases failCb_ok h2 with ⟨ep3, h3, rfl⟩ | ⟨_, rfl⟩
    · exact (hcb { ep1.note (.respCb ep.nextId none ep1.now) with busy := ep.nextId :: ep1.busy } ep3 (hb.cons rfl) h3 :)
    · exact hb
  rcases hc with ⟨ep2, ep3, e, h2, h3, rfl⟩ | ⟨ep2, h2, rfl⟩ | rfl
  · have := fail h2
    rw [← releaseUses_log h3] at this
    exact (this.cons rfl).cons rfl
  · exact (fail h2).cons rfl
  · refine Spec.Moves.cons (e := .returned ep.nextId none) ?_ rfl
    rw [enqueue_log]
    exact hb

/-- A CP peer starts to associate. -/
theorem assocStart_moves {ep ep' : Ep} {fi p io} (hm : Moves ep.log) (hp : ep.peer? fi = some p)
    (ha : ep.assocStart fi p io = .ok ep') : Moves ep'.log := by
  unfold Ep.assocStart at ha
  split at ha
  · cases ha; exact hm
  rename_i hper
  have hper : p.state.permits .waitAssoc = true := by simpa using hper
  have hfi := peer?_fi hp
  dsimp only at ha
  obtain ⟨ep9, ht, ha⟩ := Res.bind_eq_ok ha
  cases ha
  have hp1 : (ep.peerChg fi .waitAssoc).peer? fi = some (p.enter .waitAssoc ep.now ep.t26) := by
    rw [peerChg_some hp hper]
    exact setPeer_peer? (ep := ep) hp hfi rfl
  have hl1 : (ep.peerChg fi .waitAssoc).log = .peer fi (.state .waitAssoc) :: ep.log := by rw [peerChg_some hp hper]; rfl
  generalize ep.peerChg fi .waitAssoc = ep1 at ht hp1 hl1
  have hr0 : (assocReq p ep1.rts).isResponse = false := rfl
  have hcb0 : (assocReq p ep1.rts).hasCb = true := rfl
  have htype : (assocReq p ep1.rts).h.type = 5 := rfl
  have hctx := assocReq_ctx p ep1.rts
  rw [hfi] at hctx
  generalize assocReq p ep1.rts = m at ht hr0 hcb0 htype hctx
  obtain ⟨ep2, o, ⟨l, h2, hl⟩, hc⟩ := tx_cases ht
  have hlog2 : ep2.log = l ++ .passed ep1.nextId ep1.n1 ep1.t1 ((ep1.takeUses m.ctx.uses).outgoing m) ::
      .peer fi (.state .waitAssoc) :: ep.log := by
    rw [h2]
    simp only [Ep.logs, Ep.note, begun_log]
    congr 2
  have hb : Moves ep2.log := by
    rw [hlog2]
    refine Spec.Moves.append ?_ fun e he => idle_unmoved (hl e he)
    refine Spec.AllMoves.passed ⟨.inl rfl, hm.all⟩ fun _ => ⟨?_, fi, ep.log, ?_, rfl⟩
    · rw [outgoing_type]; exact htype
    · rw [outgoing_ctx, hctx]
  have hps2 : ep2.peers = ep1.peers := by
    rw [h2]
    show ((ep1.takeUses m.ctx.uses).begun m).peers = _
    rw [begun_peers]; rfl
  have hp2 : ep2.peer? fi = some (p.enter .waitAssoc ep.now ep.t26) := (peer?_eq hps2 fi).trans hp1
  have fail : ∀ {ep3}, ep2.failCb ep1.nextId { (ep1.takeUses m.ctx.uses).outgoing m with encoded := o }
      (fun ep => ep.assocResp m.ctx none .ok) = .ok ep3 →
      Moves ep3.log ∧ ∃ q, ep3.peer? fi = some q ∧ q.state = .waitRetry := by
    intro ep3 h3
    rcases failCb_ok h3 with ⟨ep4, h4, rfl⟩ | ⟨hc, _⟩
    · unfold Ep.assocResp at h4
      rw [hctx] at h4
      dsimp only at h4
      have hp2' : Ep.peer? { ep2.note (.respCb ep1.nextId none ep2.now) with busy := ep1.nextId :: ep2.busy } fi =
        some (p.enter .waitAssoc ep.now ep.t26) := hp2
      rw [hp2'] at h4
      dsimp only at h4
      cases h4
      rw [peerChg_some hp2' (by rw [enter_state]; rfl)]
      refine ⟨Spec.Moves.state (Spec.Moves.cons (e := .respCb ep1.nextId none ep2.now) hb rfl) ?_ nofun, _,
        setPeer_peer? hp2' (by simpa [Peer.enter] using hfi) rfl, rfl⟩
      refine .inr (.inr ⟨ep1.nextId, none, ep2.now, ep2.log, _, _, rfl, rfl, ⟨ep1.n1, ep1.t1, (ep1.takeUses m.ctx.uses).outgoing m, ?_, ?_, rfl,
        rfl, ?_, ?_⟩, fun k hk => by cases hk⟩)
      · rw [hlog2]; simp
      · rw [outgoing_type]; exact htype
      · rw [outgoing_ctx, hctx]
      · rw [outgoing_ctx, hctx]
    · exfalso
      apply hc
      refine ⟨?_, ?_⟩
      · show ((ep1.takeUses m.ctx.uses).outgoing m).isResponse = false
        rw [outgoing_isResponse]; exact hr0
      · show ((ep1.takeUses m.ctx.uses).outgoing m).ctx.respCb.isSome = true
        rw [outgoing_ctx, hctx]; rfl
  rcases hc with ⟨ep3, ep4, e, h3, h4, rfl⟩ | ⟨ep3, h3, rfl⟩ | rfl
  · obtain ⟨f1, q, f2, f3⟩ := fail h3
    show Moves (if txFailed _ then _ else _ : Ep).log
    rw [if_pos (by simp [txFailed, Ep.note]), peerChg_refused (p := q) (by obtain ⟨rfl, _⟩ := releaseUses_ok h4; exact f2) (by rw [f3]; rfl)]
    rw [← releaseUses_log h4] at f1
    exact (f1.cons rfl).cons rfl
  · show Moves (if txFailed _ then _ else _ : Ep).log
    rw [if_neg (by simp [txFailed, Ep.note])]
    exact (fail h3).1.cons rfl
  · show Moves (if txFailed _ then _ else _ : Ep).log
    rw [if_neg (by simp [txFailed, Ep.note])]
    refine Spec.Moves.cons (e := .returned ep1.nextId none) ?_ rfl
    rw [enqueue_log]
    exact hb

theorem associate_moves {ep ep' : Ep} {fi io} (hm : Moves ep.log) (ha : ep.associate fi io = .ok ep') : Moves ep'.log := by
  unfold Ep.associate at ha
  split at ha
  · cases ha; exact hm
  · rename_i p hp
    split at ha
    · exact assocStart_moves hm hp ha
    · cases ha; exact hm

theorem txDirect_moves {ep ep' : Ep} {m io why} (hm : Moves ep.log) (h : ep.txDirect m io why = .ok ep') : Moves ep'.log := by
  obtain ⟨r, h1, h2⟩ := Res.bind_eq_ok h
  cases h2
  exact sendMsg_moves h1 hm

theorem close_moves {ep ep' : Ep} (hm : Moves ep.log) (h : ep.close = .ok ep') : Moves ep'.log := by
  unfold Ep.close at h
  split at h
  · cases h
  · obtain ⟨ep1, h1, h2⟩ := Res.bind_eq_ok h
    cases h2
    refine Spec.Moves.append ?_ ?_
    · rw [releaseUses_log h1]; exact hm
    · intro e he
      simp only [List.mem_reverse, List.mem_flatten, List.mem_map] at he
      obtain ⟨l, ⟨x, _, rfl⟩, he⟩ := he
      simp only [List.mem_cons, List.not_mem_nil, or_false] at he
      rcases he with rfl | rfl <;> rfl

theorem run_moves (a : App) : KeepsMoves a.run := by
  induction a with
  | done => exact ok_keepsMoves
  | tx m io onFail rest ih1 ih2 =>
    intro ep ep' hm h
    simp only [App.run] at h
    split at h
    · cases h
    · rename_i ha
      obtain ⟨ep1, h1, h⟩ := Res.bind_eq_ok h
      exact ih2 _ _ (tx_moves (ep := ep.takeUses m.ctx.uses) hm ha ih1 h1) h
  | txData m io rest ih =>
    intro ep ep' hm h
    obtain ⟨ep1, h1, h⟩ := Res.bind_eq_ok h
    exact ih _ _ (txDirect_moves hm h1) h
  | heartbeat r io rest ih =>
    intro ep ep' hm h
    obtain ⟨ep1, h1, h⟩ := Res.bind_eq_ok h
    exact ih _ _ (txDirect_moves (ep := (ep.draw (heartbeatReq r ep.rts)).1) hm h1) h
  | invalidate fi rest ih => intro ep ep' hm h; exact ih _ _ (Spec.Moves.cons (e := .invalidated fi) hm rfl) h
  | setSeq s rest ih => intro ep ep' hm h; exact ih { ep with seq := s, resets := ep.resets + 1 } _ hm h
  | setTimers n1 t1 kr rest ih =>
    intro ep ep' hm h
    exact ih _ _ (Spec.Moves.cons (e := .config n1 t1 kr) hm rfl) h
  | close rest ih =>
    intro ep ep' hm h
    obtain ⟨ep1, h1, h⟩ := Res.bind_eq_ok h
    exact ih _ _ (close_moves hm h1) h
  | bind ok rest ih =>
    intro ep ep' hm h
    obtain ⟨ep1, h1, h⟩ := Res.bind_eq_ok h
    obtain ⟨ep2, h2, h1⟩ := Res.bind_eq_ok h1
    cases h1
    exact ih { ep2 with sock := ep2.cfg.hasRx && ok } _ (close_moves hm h2 :) h
  | setT26 t rest ih =>
    intro ep ep' hm h
    exact ih _ _ (Spec.Moves.cons (e := .configT26 t) hm rfl) h
  | newPeer fi r rest ih =>
    intro ep ep' hm h
    refine ih _ _ ?_ h
    unfold Ep.newPeer
    split <;> exact hm
  | setAssocCb fi cb rest ih =>
    intro ep ep' hm h
    refine ih _ _ ?_ h
    unfold Ep.setAssocCb
    split
    · exact hm
    · exact Spec.Moves.cons (e := .peer fi (.cbSet cb)) hm rfl
  | associate fi io rest ih =>
    intro ep ep' hm h
    obtain ⟨ep1, h1, h⟩ := Res.bind_eq_ok h
    exact ih _ _ (associate_moves hm h1) h

/-- on_pfcp_assoc_resp(), immediately after the event that its call is. -/
theorem assocResp_moves {ep ep' : Ep} {ctx : Ctx} {resp : Option PMsg} {cb id r t l seq} (hm : Moves ep.log)
    (hl : ep.log = .respCb id r t :: l) (hs : ∀ fi, ctx.peerFi = some fi → ∃ remote, AssocReqOf fi remote id seq l)
    (hr : ∀ k, r = some k → ∃ m, resp = some m ∧ .received k m ∈ l ∧ m.isResponse = true ∧ m.h.seq = seq) (hn : resp.isSome → r.isSome)
    (hcb : KeepsMoves cb) (h : ep.assocResp ctx resp cb = .ok ep') : Moves ep'.log := by
  unfold Ep.assocResp at h
  split at h
  · cases h
  rename_i fi hf
  split at h
  · cases h
  rename_i p hp
  obtain ⟨remote, hs⟩ := hs fi hf
  have retry : (∀ m, resp = some m → ¬ m.accepted = true) → Moves (ep.peerChg fi .waitRetry).log := by
    intro hna
    unfold Ep.peerChg
    rw [hp]
    dsimp only
    split
    · refine Spec.Moves.state hm (.inr (.inr ⟨id, r, t, l, remote, seq, rfl, hl, hs, ?_⟩)) nofun
      intro k hk
      obtain ⟨m, h1, h2, h3, h4⟩ := hr k hk
      exact ⟨m, h2, h3, h4, fun hx => hna m h1 (accepted_iff.2 hx)⟩
    · exact hm
  split at h
  · cases h
    exact retry (fun m hm => by cases hm)
  · rename_i m
    split at h
    · rename_i ha
      cases h
      exact retry (fun m' hm' => by cases hm'; simpa using ha)
    rename_i ha
    have ha : m.accepted = true := by simpa using ha
    split at h
    · cases h; exact hm
    rename_i hst
    have hst : p.state = .waitAssoc := by simpa using hst
    have key : Moves (ep.peerChg fi .associated).log := by
      rw [peerChg_some hp (by rw [hst]; rfl)]
      refine Spec.Moves.state hm (.inr (.inl ?_)) nofun
      obtain ⟨k, hk⟩ := Option.isSome_iff_exists.1 (hn rfl)
      obtain ⟨m', h1, h2, h3, h4⟩ := hr k hk
      cases h1
      exact ⟨id, k, t, l, remote, m, rfl, by rw [← hk]; exact hl, h4 ▸ hs, h2, h3, accepted_iff.1 ha⟩
    dsimp only at h
    split at h
    · exact hcb _ _ (Spec.Moves.cons (e := .peer fi (.assocCb true)) key rfl) h
    · cases h; exact key

theorem queueDel_moves {ep ep' : Ep} {id} (hm : Moves ep.log) (h : ep.queueDel id = .ok ep') : Moves ep'.log := by
  obtain ⟨ep1, h1, h2⟩ := Res.bind_eq_ok h
  cases h2
  refine Spec.Moves.cons (e := .freed id) ?_ rfl
  rw [releaseUses_log h1]
  exact hm

/-- A pending request of a CP peer was sent by it. -/
theorem Both.sentBy {T R x} {ep : Ep} {e fi} (h : Both T R none x ep) (he : e ∈ ep.reqs) (ha : e.m.ctx.respCb = some Cb.assoc)
    (hf : e.m.ctx.peerFi = some fi) : ∃ remote, AssocReqOf fi remote e.id e.m.h.seq ep.log := by
  obtain ⟨p, _, _, h3⟩ := h.peer.pend fi e he (h.use.assocEntry he ha hf) nofun
  exact ⟨_, h3⟩

theorem retrans_moves {ep : Ep} {e io x} (hm : Moves ep.log) (h : ep.retrans e io = .ok x) : Moves x.1.log := by
  unfold Ep.retrans at h
  split at h
  · cases h; exact hm
  · obtain ⟨⟨ep2, m2, rc⟩, h2, h1⟩ := Res.bind_eq_ok h
    have := sendMsg_moves h2 hm
    cases rc <;> cases h1 <;> exact this

theorem reqTimer_moves {T R} {ep ep' : Ep} {id io} {a : App} (hb : Both T R none none ep) (hm : Moves ep.log)
    (hx : ep.reqTimer id io a.run = .ok ep') : Moves ep'.log := by
  unfold Ep.reqTimer at hx
  cases hf : ep.reqs.find? (fun e => e.id = id) with
  | none => rw [hf] at hx; cases hx; exact hm
  | some e =>
    rw [hf] at hx
    dsimp only at hx
    obtain ⟨he, rfl⟩ := find_id hf
    by_cases hex : e.expired ep.now = true
    rotate_left
    · rw [if_pos hex] at hx; cases hx; exact hm
    rw [if_neg (by simpa using hex)] at hx
    by_cases hr : e.m.isResponse = true
    · rw [if_pos hr] at hx; cases hx
    rw [if_neg hr] at hx
    obtain ⟨⟨ep1, keep⟩, h1, hx⟩ := Res.bind_eq_ok hx
    have hm1 : Moves ep1.log := retrans_moves (ep := { ep with reqs := setEntry ep.reqs { e with timer := none } }) hm h1
    obtain ⟨hb1, e1, he1, hi1, hc1⟩ := hb.retrans he h1
    dsimp only at hx
    split at hx
    · cases hx; exact hm1
    obtain ⟨ep2, h2, hx⟩ := Res.bind_eq_ok hx
    split at hx
    rotate_left
    · cases hx
    refine queueDel_moves ?_ hx
    clear hx
    split at h2
    · obtain ⟨ep3, h3, h2⟩ := Res.bind_eq_ok h2
      cases h2
      split at h3
      · rename_i ha
        have h3 : Ep.assocResp _ e.m.ctx none .ok = .ok ep3 := h3
        show Moves ep3.log
        refine assocResp_moves (resp := none) (seq := e1.m.h.seq) (l := ep1.log) (id := e.id) (r := none) (t := ep1.now) (h := h3)
          (Spec.Moves.cons hm1 (e := .respCb e.id none ep1.now) rfl :) rfl ?_ (fun k hk => by cases hk) (fun h => by cases h) ok_keepsMoves
        intro fi hf
        rw [← hi1]
        rw [← hc1] at ha hf
        exact hb1.sentBy he1 ha hf
      · have h3 : a.run _ = .ok ep3 := h3
        refine (run_moves a _ ep3 ?_ h3 :)
        exact (Spec.Moves.cons hm1 (e := .respCb e.id none ep1.now) rfl :)
    · cases h2; exact hm1

theorem respTimer_moves {ep ep' : Ep} {id} (hm : Moves ep.log) (hx : ep.respTimer id = .ok ep') : Moves ep'.log := by
  unfold Ep.respTimer at hx
  split at hx
  · cases hx; exact hm
  split at hx
  · cases hx; exact hm
  split at hx
  · cases hx
  exact queueDel_moves hm hx

theorem setCtx_moves {ep ep' : Ep} {k req r} (hm : Moves ep.log) (hx : ep.setCtx k req r = .ok ep') : Moves ep'.log := by
  unfold Ep.setCtx at hx
  split at hx
  · exact run_moves _ _ _ (Spec.Moves.cons (e := .setCtx k req) hm rfl) hx
  · cases hx; exact hm

theorem dispatch_moves {ep ep' : Ep} {k req r} (hm : Moves ep.log) (hx : ep.dispatch k req r = .ok ep') : Moves ep'.log :=
  run_moves _ _ _ (Spec.Moves.cons (e := .dispatch k req) hm rfl) hx

theorem handleDuplicate_moves {ep ep' : Ep} {k prev r} (hm : Moves ep.log) (hx : ep.handleDuplicate k prev r = .ok ep') :
    Moves ep'.log := by
  obtain ⟨ep1, h1, hx⟩ := Res.bind_eq_ok hx
  obtain ⟨ep2, h2, h1⟩ := Res.bind_eq_ok h1
  cases h1
  have := setCtx_moves (ep := { ep with busy := prev.id :: ep.busy }) hm h2
  dsimp only at hx
  split at hx
  · cases hx
  · obtain ⟨x, h3, hx⟩ := Res.bind_eq_ok hx
    cases hx
    exact sendMsg_moves h3 this

theorem handleResponse_moves {T R} {ep ep' : Ep} {k m prev r} (h : Both T R none none ep) (hm : Moves ep.log) (hp : prev ∈ ep.reqs)
    (hsq : prev.m.h.seq = m.h.seq) (hrm : m.isResponse = true) (hk : .received k m ∈ ep.log)
    (hx : ep.handleResponse k m prev r = .ok ep') : Moves ep'.log := by
  obtain ⟨ep1, h1, hx⟩ := Res.bind_eq_ok hx
  obtain ⟨ep2, h2, he1⟩ := Res.bind_eq_ok h1
  cases he1
  dsimp only at hx
  split at hx
  rotate_left
  · cases hx
  refine queueDel_moves (ep := { ep2 with busy := ep.busy }) ?_ hx
  obtain ⟨ep3, h3, h2⟩ := Res.bind_eq_ok h2
  have hm3 := setCtx_moves (ep := { ep with busy := prev.id :: ep.busy }) hm h3
  have hb3 := (h.busy (prev.id :: ep.busy)).setCtx h3
  obtain ⟨l3, hl3, -⟩ := setCtx_adds h3
  have hl3' : ep3.log = l3 ++ ep.log := hl3
  split at h2
  · obtain ⟨⟨ep4, rc⟩, h4, h2⟩ := Res.bind_eq_ok h2
    dsimp only at h2
    have hm4 : Moves ep4.log := by
      unfold Ep.respCall at h4
      split at h4
      · rename_i ha
        split at h4
        · cases h4
        rename_i e hf
        obtain ⟨he, hei⟩ := find_id hf
        have he' : e ∈ ep3.reqs := he
        obtain ⟨ep5, h5, h4⟩ := Res.bind_eq_ok h4
        cases h4
        have hsame := same_message (l := l3) h.use hb3.use hl3' (List.mem_append_left _ hp) (List.mem_append_left _ he') hei
        refine assocResp_moves (ep := ep3.note (.respCb prev.id (some k) ep3.now)) (seq := e.m.h.seq) (l := ep3.log) (hm3.cons rfl) rfl ?_ ?_
          (fun _ => rfl) (run_moves r.onResp) h5
        · intro fi hf
          rw [← hei]
          exact hb3.sentBy he' (by rw [hsame.1]; exact ha) hf
        · rintro _ ⟨⟩
          exact ⟨m, rfl, by rw [hl3']; exact List.mem_append_right _ hk, hrm, by rw [hsame.2]; exact hsq.symm⟩
      · obtain ⟨ep5, h5, h4⟩ := Res.bind_eq_ok h4
        cases h4
        exact run_moves _ _ _ (Spec.Moves.cons hm3 (e := .respCb prev.id (some k) ep3.now) rfl) h5
    split at h2
    · cases h2; exact hm4
    · exact (dispatch_moves hm4 h2 :)
  · exact (dispatch_moves hm3 h2 :)

theorem handleRx_moves {ep ep' : Ep} {m r} (h : Both [] [] none none ep) (hm : Moves ep.log) (hx : ep.handleRx m r = .ok ep') :
    Moves ep'.log := by
  unfold Ep.handleRx at hx
  obtain ⟨ep1, h1, hx⟩ := Res.bind_eq_ok hx
  obtain ⟨ep2, h2, hx⟩ := Res.bind_eq_ok hx
  rw [releaseUses_log hx]
  have hb0 : Both [] [] none none ({ ep with nextId := ep.nextId + 1 }.note (.received ep.nextId m)) :=
    h.same [.received ep.nextId m] rfl (by simp [idle, dull, plain]) rfl (Nat.le_succ _) rfl rfl rfl rfl
  have hm0 : Moves ({ ep with nextId := ep.nextId + 1 }.note (.received ep.nextId m)).log := Spec.Moves.cons hm rfl
  have hk : .received ep.nextId m ∈ ep1.log := by
    obtain ⟨l, hl⟩ := heartbeatReply_log h1
    rw [hl]
    simp [Ep.note]
  have hb1 : Both [] [] none none ep1 ∧ Moves ep1.log := by
    unfold Ep.heartbeatReply at h1
    split at h1
    · obtain ⟨⟨ep3, m3, rc⟩, h3, h1⟩ := Res.bind_eq_ok h1
      cases h1
      refine ⟨Both.sendMsg (ep := { ({ ep with nextId := ep.nextId + 1 }.note (.received ep.nextId m)) with
        nextId := ({ ep with nextId := ep.nextId + 1 }.note (.received ep.nextId m)).nextId + 1 }) ?_ h3, sendMsg_moves h3 hm0⟩
      exact hb0.same [] rfl (by simp) rfl (Nat.le_succ _) rfl rfl rfl rfl
    · cases h1; exact ⟨hb0, hm0⟩
  unfold Ep.handleMsg at h2
  split at h2
  · rename_i prev hq
    by_cases hrm : m.isResponse = true
    · rw [if_pos hrm] at h2 hq
      exact handleResponse_moves hb1.1 hb1.2 (queueFind_some hq).1 (queueFind_some hq).2 hrm hk h2
    · rw [if_neg hrm] at h2
      exact handleDuplicate_moves hb1.2 h2
  · obtain ⟨ep3, h3, h2⟩ := Res.bind_eq_ok h2
    exact dispatch_moves (setCtx_moves hb1.2 h3) h2

theorem handleAll_moves {remote} : ∀ {l : List Rx} {rs} {ep ep' : Ep}, Both [] [] none none ep → Moves ep.log →
    ep.handleAll remote l rs = .ok ep' → Moves ep'.log
  | [], _, ep, ep', _, hm, hx => by cases hx; exact hm
  | ⟨_, none⟩ :: l, rs, ep, ep', h, hm, hx => handleAll_moves (l := l) h hm hx
  | ⟨d, some ies⟩ :: l, rs, ep, ep', h, hm, hx => by
    obtain ⟨ep1, h1, hx⟩ := Res.bind_eq_ok hx
    exact handleAll_moves (h.handleRx h1) (handleRx_moves h hm h1) hx

theorem step_moves {ep ep' : Ep} {op : Op} (h : Both [] [] none none ep) (hm : Moves ep.log) (hx : op.step ep = .ok ep') :
    Moves ep'.log := by
  cases op with
  | app a => exact run_moves a _ _ hm hx
  | rx remote d rs =>
    have hx : ep.rxDatagram remote d rs = .ok ep' := hx
    unfold Ep.rxDatagram at hx
    dsimp only at hx
    split at hx
    · cases hx; exact hm
    split at hx
    · cases hx
    obtain ⟨l, _, hx⟩ := Res.bind_eq_ok hx
    exact handleAll_moves h hm hx
  | advance ms => cases hx; exact hm
  | reqTimer id io f => exact reqTimer_moves h hm hx
  | respTimer id => exact respTimer_moves hm hx
  | peerTimer fi io =>
    have hx : ep.peerTimer fi io = .ok ep' := hx
    rcases h.peer.peerTimer_eq fi io with ⟨hy, _⟩ | ⟨p, hp, hs, _, hy⟩
    · rw [hy] at hx; cases hx; exact hm
    · rw [hy] at hx; exact assocStart_moves hm hp hx

/-- After every history. -/
theorem Reached.moves {ep : Ep} (h : Reached ep) : Moves ep.log := by
  induction h with
  | create cfg n1 t1 keepResp time now => refine Spec.Moves.mk ?_ ?_ <;> first | trivial | nofun
  | op o h hx ih => exact step_moves h.both ih hx
  | rx m r h hx ih => exact handleRx_moves h.both ih hx

end Verif
