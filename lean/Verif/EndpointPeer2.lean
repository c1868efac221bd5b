/-
CP peers, continued: the functions of the endpoint.
-/
import Verif.EndpointPeer

namespace Verif

/-- The Association Setup Request is queued. -/
theorem PeerInv.addReq {c} {ep : Ep} {fi p e} (h : PeerInv c (some fi) ep) (hp : ep.peer? fi = some p) (hs : p.state = .waitAssoc)
    (hr : e.m.isResponse = false) (ha : AssocEntry ep.log fi e) (hne : some e.id ≠ c) (hreq : AssocReqOf fi p.remote e.id e.m.h.seq ep.log)
    (hno : ∀ y ∈ ep.reqs, AssocEntry ep.log fi y → some y.id = c) : PeerInv c none (ep.enqueue e) := by
  have heq : ep.enqueue e = { ep with reqs := e :: ep.reqs } := by unfold Ep.enqueue; rw [if_neg (by simp [hr])]
  rw [heq]
  refine ⟨h.called, h.legal, h.state, h.absent, h.known, h.timer, h.retry, h.t26, h.cb, ?_, ?_, ?_, h.acc, h.cbok⟩
  · intro f y hy hay hyc
    rcases List.mem_cons.mp hy with rfl | hy
    · have hf : f = fi := Option.some.inj (hay.symm.trans ha)
      subst hf
      exact ⟨p, hp, hs, hreq⟩
    · exact h.pend f y hy hay hyc
  · intro f a ha1 b hb1 ha2 hb2 ha3 hb3
    have key : ∀ y ∈ ep.reqs, AssocEntry ep.log f y → some y.id ≠ c → AssocEntry ep.log f e → False := by
      intro y hy hay hyc hae
      have hf : f = fi := Option.some.inj (hae.symm.trans ha)
      subst hf
      exact hyc (hno y hy hay)
    rcases List.mem_cons.mp ha1 with ha4 | ha4 <;> rcases List.mem_cons.mp hb1 with hb4 | hb4
    · rw [ha4, hb4]
    · exact (key b hb4 hb2 hb3 (ha4 ▸ ha2)).elim
    · exact (key a ha4 ha2 ha3 (hb4 ▸ hb2)).elim
    · exact h.one f a ha4 b hb4 ha2 hb2 ha3 hb3
  · intro f q hq hqs _
    by_cases hf : f = fi
    · subst hf
      exact .inl ⟨e, .head _, ha, hne⟩
    · rcases h.wait f q hq hqs (by simpa using hf) with ⟨y, hy, h2⟩ | h
      · exact .inl ⟨y, .tail _ hy, h2⟩
      · exact .inr h

/-- No request of a CP peer is pending that is not waiting for a response. -/
theorem PeerInv.none_pending {c x} {ep : Ep} {fi p} (h : PeerInv c x ep) (hp : ep.peer? fi = some p) (hs : p.state ≠ .waitAssoc) :
    ∀ e ∈ ep.reqs, AssocEntry ep.log fi e → some e.id = c := by
  intro e he ha
  by_cases hc : some e.id = c
  · exact hc
  · obtain ⟨q, h1, h2, _⟩ := h.pend fi e he ha hc
    rw [hp] at h1
    cases h1
    exact absurd h2 hs

theorem Both.peerChg {T R c c' x x'} {ep : Ep} (h : Both T R c x ep) {fi p new} (hp : ep.peer? fi = some p)
    (hper : p.state.permits new = true) (hleave : p.state ≠ .associated)
    (hnew : new = .waitAssoc ∨ new = .waitRetry ∨ new = .associated ∧ p.hasCb = false)
    (hc : c = none ∨ c' = c) (hc' : ∀ id, c' = some id → id < ep.nextId)
    (hmine : ∀ e ∈ ep.reqs, AssocEntry ep.log fi e → some e.id = c')
    (hother : ∀ e ∈ ep.reqs, some e.id = c' → c' = c ∨ AssocEntry ep.log fi e)
    (hx : x = none ∨ x = some fi) (hx' : new = .waitAssoc → x' = some fi)
    (hacc : new = .associated → Accepted fi p.remote ep.log) : Both T R c' x' (ep.peerChg fi new) := by
  rw [peerChg_some hp hper]
  refine h.chg (l := [.peer fi (.state new)]) (h.peer.chg hp hper hleave rfl ?_ rfl rfl rfl ?_ hc hc' hmine hother hx hx' hacc) rfl
    (by simp [dull]) rfl rfl rfl rfl
  · rw [if_neg]
    · rfl
    · rintro ⟨rfl, hcb⟩
      rcases hnew with h | h | h
      · cases h
      · cases h
      · rw [h.2] at hcb; cases hcb
  · rcases hnew with h | h | h
    · exact .inl h
    · exact .inr (.inl h)
    · exact .inr (.inr h.1)

theorem assocReq_ctx (p : Peer) (rts) : (assocReq p rts).ctx = { respCb := some .assoc, peerFi := some p.fi, peerUse := some (p.fi, tokenTx) } := rfl

theorem enter_state (p : Peer) (s now t) : (p.enter s now t).state = s := rfl
theorem enter_remote (p : Peer) (s now t) : (p.enter s now t).remote = p.remote := rfl

theorem outgoing_type (ep : Ep) (m : PMsg) : (ep.outgoing m).h.type = m.h.type := by
  unfold Ep.outgoing PMsg.withNodeId
  split <;> split <;> rfl

theorem outgoing_to (ep : Ep) (m : PMsg) : (ep.outgoing m).remote = m.remote := by
  unfold Ep.outgoing PMsg.withNodeId
  split <;> split <;> rfl

/-- A CP peer starts to associate. -/
theorem Both.assocStart {T R c} {ep ep' : Ep} {fi p io} (h : Both T R c none ep) (hp : ep.peer? fi = some p)
    (hs : p.state = .disabled ∨ p.state = .waitRetry) (ha : ep.assocStart fi p io = .ok ep') : Both T R c none ep' := by
  have hper : p.state.permits .waitAssoc = true := by rcases hs with hs | hs <;> rw [hs] <;> rfl
  have hnw : p.state ≠ .waitAssoc := by rcases hs with hs | hs <;> rw [hs] <;> simp
  have hno := h.peer.none_pending hp hnw
  have hfi := peer?_fi hp
  unfold Ep.assocStart at ha
  rw [if_neg (by simp [hper])] at ha
  dsimp only at ha
  have h1 : Both T R c (some fi) (ep.peerChg fi .waitAssoc) :=
    h.peerChg hp hper (by rcases hs with hs | hs <;> rw [hs] <;> simp) (.inl rfl) (.inr rfl) h.peer.called hno (fun _ _ _ => .inl rfl) (.inl rfl) (fun _ => rfl) (fun h => by cases h)
  have hp1 : (ep.peerChg fi .waitAssoc).peer? fi = some (p.enter .waitAssoc ep.now ep.t26) := by
    rw [peerChg_some hp hper]
    exact setPeer_peer? (ep := ep) hp hfi rfl
  have hq1 : (ep.peerChg fi .waitAssoc).reqs = ep.reqs := by rw [peerChg_some hp hper]; rfl
  have hw1 : ∀ id, owner (ep.peerChg fi .waitAssoc).log id = owner ep.log id := by
    intro id; rw [peerChg_some hp hper]; rfl
  generalize ep.peerChg fi .waitAssoc = ep1 at ha h1 hp1 hq1 hw1
  obtain ⟨ep9, ht, ha⟩ := Res.bind_eq_ok ha
  cases ha
  have hr0 : (assocReq p ep1.rts).isResponse = false := rfl
  have hcb0 : (assocReq p ep1.rts).hasCb = true := rfl
  have hrem : (assocReq p ep1.rts).remote = p.remote := rfl
  have htype : (assocReq p ep1.rts).h.type = 5 := rfl
  have hctx := assocReq_ctx p ep1.rts
  generalize assocReq p ep1.rts = m at ht hr0 hcb0 hrem htype hctx
  obtain ⟨ep2, o, ⟨l, h2, hl⟩, hc⟩ := tx_cases ht
  have hid : (ep1.takeUses m.ctx.uses).nextId = ep1.nextId := rfl
  rw [hid] at hc
  have hb := h1.begin m (fun _ => by rw [hctx]; rfl) h2 hl
  have hps2 : ep2.peers = ep1.peers := by
    rw [h2]
    show ((ep1.takeUses m.ctx.uses).begun m).peers = _
    rw [begun_peers]; rfl
  have hq2 : ep2.reqs = ep.reqs := by
    rw [h2, ← hq1]
    simp [Ep.logs, Ep.note, Ep.takeUses]
  have hp2 : ep2.peer? fi = some (p.enter .waitAssoc ep.now ep.t26) := (peer?_eq hps2 fi).trans hp1
  have hno2 : ∀ e ∈ ep2.reqs, AssocEntry ep2.log fi e → some e.id = c := by
    intro e he hae
    rw [hq2] at he
    refine hno e he ?_
    unfold AssocEntry at hae ⊢
    rw [← hae, ← hw1, h2]
    have hlt := h1.use.queuedOld e (List.mem_append_left _ (hq1 ▸ he))
    show _ = owner (l ++ (_ :: ((ep1.takeUses m.ctx.uses).begun m).log)) e.id
    rw [owner_append (fun x hx => ?_), begun_log]
    · refine (owner_old (l := [_]) ?_).symm
      intro i n1 t1 q hx
      cases List.mem_singleton.mp hx
      exact fun hh => Nat.lt_irrefl _ (hh ▸ hlt)
    · have := hl x hx
      simp [idle] at this
      exact dull_unpassed this.1
  have fail : ∀ {ep3}, ep2.failCb ep1.nextId { (ep1.takeUses m.ctx.uses).outgoing m with encoded := o }
      (fun ep => ep.assocResp m.ctx none .ok) = .ok ep3 →
      Both ((ep1.nextId, m.ctx) :: T) R c none ep3 ∧ ∃ q, ep3.peer? fi = some q ∧ q.state = .waitRetry := by
    intro ep3 h3
    rcases failCb_ok h3 with ⟨ep4, h4, rfl⟩ | ⟨hn, rfl⟩
    · have hbb := (hb.note (e := .respCb ep1.nextId none ep2.now) rfl).busy (ep1.nextId :: ep2.busy)
      have hp3 : ({ ep2.note (.respCb ep1.nextId none ep2.now) with busy := ep1.nextId :: ep2.busy } : Ep).peer? fi =
        some (p.enter .waitAssoc ep.now ep.t26) := hp2
      have hno5 : ∀ e ∈ ({ ep2.note (.respCb ep1.nextId none ep2.now) with busy := ep1.nextId :: ep2.busy } : Ep).reqs,
        AssocEntry ({ ep2.note (.respCb ep1.nextId none ep2.now) with busy := ep1.nextId :: ep2.busy } : Ep).log fi e →
        some e.id = c := hno2
      generalize ({ ep2.note (.respCb ep1.nextId none ep2.now) with busy := ep1.nextId :: ep2.busy } : Ep) = ep5 at h4 hbb hp3 hno5
      unfold Ep.assocResp at h4
      rw [hctx] at h4
      dsimp only at h4
      rw [hfi, hp3] at h4
      dsimp only at h4
      cases h4
      have := hbb.peerChg (c' := c) (x' := none) (new := .waitRetry) hp3 rfl (by simp [enter_state]) (.inr (.inl rfl)) (.inr rfl) hbb.peer.called
        hno5 (fun _ _ _ => .inl rfl) (.inr rfl) (fun h => by cases h) (fun h => by cases h)
      refine ⟨this.busy _, ?_⟩
      rw [peerChg_some hp3 rfl]
      exact ⟨(p.enter .waitAssoc ep.now ep.t26).enter .waitRetry ep5.now ep5.t26, setPeer_peer? (ep := ep5) hp3 hfi rfl, rfl⟩
    · refine absurd ⟨?_, ?_⟩ hn
      · dsimp only; rw [outgoing_isResponse]; exact hr0
      · show (Ep.outgoing _ m).ctx.respCb.isSome = true
        rw [outgoing_ctx]; exact hcb0
  rcases hc with ⟨ep3, ep4, e, h3, h4, rfl⟩ | ⟨ep3, h3, rfl⟩ | rfl
  · obtain ⟨h5, q, h6, h7⟩ := fail h3
    have h8 := h5.lost (e := e) h4
    rw [if_pos (by rfl)]
    have : ((ep4.note (.freed ep1.nextId)).note (.returned ep1.nextId (some e))).peer? fi = some q := by
      obtain ⟨rfl, _⟩ := releaseUses_ok h4
      exact h6
    rw [peerChg_refused this (by rw [h7]; rfl)]
    exact h8
  · obtain ⟨h5, _⟩ := fail h3
    rw [if_neg (by simp [Ep.note, txFailed])]
    exact h5.leaked
  · rw [if_neg (by simp [Ep.note, txFailed])]
    have hpass : Event.passed ep1.nextId ep1.n1 ep1.t1 ((ep1.takeUses m.ctx.uses).outgoing m) ∈ ep2.log := by
      rw [h2]
      simp [Ep.logs, Ep.note, Ep.takeUses]
    refine ⟨?_, PeerInv.same (ep := Ep.enqueue _ _) ?_ [_] rfl (by simp [plain]) rfl (Nat.le_refl _) rfl rfl fun _ _ => rfl⟩
    · refine UseInv.enqueue (n1 := ep1.n1) (t1 := ep1.t1) (m := (ep1.takeUses m.ctx.uses).outgoing m) ?_ hpass rfl
      have := hb.use
      simp only [Ep.entry, outgoing_ctx]
      exact this
    · refine hb.peer.addReq hp2 rfl ?_ ?_ ?_ ?_ hno2
      · simp only [Ep.entry, outgoing_isResponse]; exact hr0
      · refine owner_of hpass ?_ ?_ (fun a b c' a' b' c'' => hb.use.one _ a b c' a' b' c'')
        · rw [outgoing_ctx, hctx]
        · rw [outgoing_ctx, hctx, hfi]
      · intro hcc
        have := h1.peer.called _ hcc.symm
        exact Nat.lt_irrefl _ this
      · refine ⟨ep1.n1, ep1.t1, _, hpass, ?_, ?_, rfl, ?_, ?_⟩
        · rw [outgoing_type]; exact htype
        · rw [outgoing_to]; exact hrem
        · rw [outgoing_ctx, hctx, hfi]
        · rw [outgoing_ctx, hctx]

theorem Both.associate {T R c} {ep ep' : Ep} {fi io} (h : Both T R c none ep) (ha : ep.associate fi io = .ok ep') :
    Both T R c none ep' := by
  unfold Ep.associate at ha
  split at ha
  · cases ha; exact h
  · rename_i p hp
    split at ha
    · rename_i hs; exact h.assocStart hp hs ha
    · cases ha; exact h

/-- The timer of a CP peer is its retry timer. -/
theorem PeerInv.peerTimer_eq {c x} {ep : Ep} (h : PeerInv c x ep) (fi io) :
    ep.peerTimer fi io = .ok ep ∧ (∀ p, ep.peer? fi = some p → ¬ p.timer.any (fun d => d ≤ ep.now) = true) ∨
    ∃ p, ep.peer? fi = some p ∧ p.state = .waitRetry ∧ p.timer.any (fun d => d ≤ ep.now) = true ∧
      ep.peerTimer fi io = ep.assocStart fi p io := by
  unfold Ep.peerTimer
  cases hp : ep.peer? fi with
  | none => exact .inl ⟨rfl, nofun⟩
  | some p =>
    dsimp only
    by_cases ht : p.timer.any (fun d => d ≤ ep.now) = true
    rotate_left
    · rw [if_pos ht]; exact .inl ⟨rfl, fun _ h => by cases h; exact ht⟩
    right
    have hs : p.state = .waitRetry := by
      refine h.timer fi p hp ?_
      cases hx : p.timer with
      | none => rw [hx] at ht; cases ht
      | some d => rfl
    rw [if_neg (by simpa using ht), if_pos hs]
    refine ⟨p, rfl, hs, ht, ?_⟩
    have hfi := peer?_fi hp
    have hp' : ({ ep with peers := setPeer ep.peers { p with timer := none } } : Ep).peer? fi = some { p with timer := none } :=
      setPeer_peer? (ep := ep) hp hfi rfl
    unfold Ep.assocStart
    rw [peerChg_some hp (by rw [hs]; rfl), peerChg_some hp' (by show p.state.permits _ = true; rw [hs]; rfl)]
    rw [if_neg (by show ¬ ¬ p.state.permits _ = true; rw [hs]; simp; rfl), if_neg (by rw [hs]; simp; rfl)]
    dsimp only
    rw [setPeer_setPeer _ _ _ (by rfl)]
    rfl

theorem Both.peerTimer {T R c} {ep ep' : Ep} {fi io} (h : Both T R c none ep) (ha : ep.peerTimer fi io = .ok ep') :
    Both T R c none ep' := by
  rcases h.peer.peerTimer_eq fi io with ⟨hx, _⟩ | ⟨p, hp, hs, _, hx⟩
  · rw [hx] at ha; cases ha; exact h
  · rw [hx] at ha; exact h.assocStart hp (.inr hs) ha

/-- osmo_pfcp_endpoint_close() -/
theorem Both.close {T R c} {ep ep' : Ep} (h : Both T R c none ep) (hc : ep.close = .ok ep') : Both T R c none ep' := by
  refine ⟨h.use.close hc, ?_⟩
  unfold Ep.close at hc
  split at hc
  · cases hc
  obtain ⟨ep1, h1, hc⟩ := Res.bind_eq_ok hc
  cases hc
  obtain ⟨rfl, -⟩ := releaseUses_ok h1
  refine h.peer.frame (((ep.reqs ++ ep.resps).map fun e => [Event.dropped e.id, Event.freed e.id]).flatten.reverse) rfl ?_ rfl
    h.peer.called ?_ ?_ ?_
  · intro e he
    simp only [List.mem_reverse, List.mem_flatten, List.mem_map] at he
    obtain ⟨l, ⟨q, _, rfl⟩, he⟩ := he
    simp only [List.mem_cons, List.not_mem_nil, or_false] at he
    rcases he with rfl | rfl <;> rfl
  · rcases h.peer.t26 with h | h
    · exact .inl h
    · exact .inr (List.mem_append_right _ h)
  · intro fi e he; cases he
  · intro fi e he ha hne
    obtain ⟨p, _, _, h3⟩ := h.peer.pend fi e he ha hne
    right
    refine ⟨e.id, p.remote, e.m.h.seq, h3.mono _, List.mem_append_left _ ?_⟩
    simp only [List.mem_reverse, List.mem_flatten, List.mem_map]
    exact ⟨_, ⟨e, List.mem_append_left _ he, rfl⟩, .head _⟩

theorem invalidate_ctx (m : PMsg) (fi) :
    (msgInvalidateCtx m fi).ctx.respCb = m.ctx.respCb ∧ (msgInvalidateCtx m fi).h = m.h ∧
    (msgInvalidateCtx m fi).ctx.peerFi = if m.ctx.peerFi = some fi then none else m.ctx.peerFi := by
  unfold msgInvalidateCtx
  by_cases h1 : m.ctx.sessionFi = some fi <;> by_cases h2 : m.ctx.peerFi = some fi <;> simp [h1, h2]

/-- osmo_pfcp_endpoint_invalidate_ctx() -/
theorem Both.invalidate {T R c} {ep : Ep} (h : Both T R c none ep) (fi) : Both T R c none (ep.invalidate fi) := by
  refine ⟨h.use.invalidate fi, ?_⟩
  have hmem : ∀ e' ∈ (ep.invalidate fi).reqs, ∃ e ∈ ep.reqs, e' = { e with m := msgInvalidateCtx e.m fi } := by
    intro e' he'
    obtain ⟨e, he, rfl⟩ := List.mem_map.mp he'
    exact ⟨e, he, rfl⟩
  refine h.peer.frame [.invalidated fi] rfl (by simp [plain]) rfl h.peer.called ?_ ?_ ?_
  · rcases h.peer.t26 with h | h
    · exact .inl h
    · exact .inr (.tail _ h)
  · intro f e' he' ha hne
    obtain ⟨e, he, rfl⟩ := hmem e' he'
    exact ⟨e, he, ha, hne, rfl, (invalidate_ctx e.m fi).2.1⟩
  · intro f e he ha hne
    exact .inl ⟨{ e with m := msgInvalidateCtx e.m fi }, List.mem_map.mpr ⟨e, he, rfl⟩, ha, hne⟩

theorem txDirect_both {T R c} {ep ep' : Ep} {m io why} (h : Both T R c none ep) (ht : ep.txDirect m io why = .ok ep') :
    Both T R c none ep' := by
  obtain ⟨⟨ep1, m1, rc⟩, h1, ht⟩ := Res.bind_eq_ok ht
  cases ht
  exact (h.same (ep' := { ep with nextId := ep.nextId + 1 }) [] rfl (by simp) rfl (Nat.le_succ _) rfl rfl rfl rfl).sendMsg h1

theorem ok_keeps : Keeps .ok := by intro T R c ep ep' h hx; cases hx; exact h

/-- What the application does. -/
theorem run_keeps (a : App) : Keeps a.run := by
  induction a with
  | done => exact ok_keeps
  | tx m io f r hf hr =>
    intro T R c ep ep' h hx
    unfold App.run at hx
    split at hx
    · cases hx
    · rename_i ha
      obtain ⟨ep1, h1, hx⟩ := Res.bind_eq_ok hx
      exact hr _ _ _ _ _ (h.tx ha hf h1) hx
  | txData m io r hr =>
    intro T R c ep ep' h hx
    obtain ⟨ep1, h1, hx⟩ := Res.bind_eq_ok hx
    exact hr _ _ _ _ _ (txDirect_both h h1) hx
  | heartbeat remote io r hr =>
    intro T R c ep ep' h hx
    obtain ⟨ep1, h1, hx⟩ := Res.bind_eq_ok hx
    refine hr _ _ _ _ _ (txDirect_both (ep := { ep with seq := nextSeqNr ep.seq, draws := ep.draws + 1 }) ?_ h1) hx
    exact h.same [] rfl (by simp) rfl (Nat.le_refl _) rfl rfl rfl rfl
  | invalidate fi r hr => intro T R c ep ep' h hx; exact hr _ _ _ _ _ (h.invalidate fi) hx
  | setSeq s r hr =>
    intro T R c ep ep' h hx
    refine hr _ _ _ { ep with seq := s, resets := ep.resets + 1 } _ ?_ hx
    exact h.same [] rfl (by simp) rfl (Nat.le_refl _) rfl rfl rfl rfl
  | setTimers n1 t1 kr r hr =>
    intro T R c ep ep' h hx
    refine hr _ _ _ (Ep.note { ep with n1 := n1, t1 := t1, keepResp := kr } (.config n1 t1 kr)) _ ?_ hx
    exact h.same [.config n1 t1 kr] rfl (by simp [idle, dull, plain]) rfl (Nat.le_refl _) rfl rfl rfl rfl
  | close r hr =>
    intro T R c ep ep' h hx
    obtain ⟨ep1, h1, hx⟩ := Res.bind_eq_ok hx
    exact hr _ _ _ _ _ (h.close h1) hx
  | bind ok r hr =>
    intro T R c ep ep' h hx
    obtain ⟨ep1, h1, hx⟩ := Res.bind_eq_ok hx
    obtain ⟨ep2, h2, h1⟩ := Res.bind_eq_ok h1
    cases h1
    refine hr _ _ _ _ _ ?_ hx
    exact (h.close h2).same [] rfl (by simp) rfl (Nat.le_refl _) rfl rfl rfl rfl
  | setT26 t r hr =>
    intro T R c ep ep' h hx
    refine hr _ _ _ (Ep.note { ep with t26 := t } (.configT26 t)) _ ⟨?_, ?_⟩ hx
    · exact h.use.logs [.configT26 t] rfl (by simp [dull]) (Nat.le_refl _) rfl rfl rfl
    · refine h.peer.frame [.configT26 t] rfl (by simp [plain]) rfl h.peer.called ?_
        (fun fi e he ha hne => ⟨e, he, ha, hne, rfl, rfl⟩) (fun fi e he ha hne => .inl ⟨e, he, ha, hne⟩)
      by_cases ht : t = 0
      · subst ht; exact .inr (.head _)
      · exact .inl ht
  | newPeer fi remote r hr =>
    intro T R c ep ep' h hx
    refine hr _ _ _ _ _ ⟨?_, h.peer.newPeer fi remote⟩ hx
    unfold Ep.newPeer
    split
    · exact h.use
    · exact h.use.logs [] rfl (by simp) (Nat.le_refl _) rfl rfl rfl
  | setAssocCb fi b r hr =>
    intro T R c ep ep' h hx
    refine hr _ _ _ _ _ ⟨?_, h.peer.setAssocCb fi b⟩ hx
    unfold Ep.setAssocCb
    split
    · exact h.use
    · exact h.use.logs [.peer fi (.cbSet b)] rfl (by simp [dull]) (Nat.le_refl _) rfl rfl rfl
  | associate fi io r hr =>
    intro T R c ep ep' h hx
    obtain ⟨ep1, h1, hx⟩ := Res.bind_eq_ok hx
    exact hr _ _ _ _ _ (h.associate h1) hx

/-- A pending request with on_pfcp_assoc_resp() and the FSM instance of a CP peer is an Association Setup Request
of this peer. -/
theorem UseInv.assocEntry {T R} {ep : Ep} {e fi} (h : UseInv T R ep) (he : e ∈ ep.reqs)
    (ha : e.m.ctx.respCb = some Cb.assoc) (hf : e.m.ctx.peerFi = some fi) : AssocEntry ep.log fi e := by
  obtain ⟨m, h1, h2, _⟩ := h.queued e (List.mem_append_left _ he)
  obtain ⟨n1, t1, hp⟩ := live_passed h1
  have hm : m.ctx.peerFi = some fi := by
    rcases h2.peer with h | ⟨_, h, _⟩
    · exact h.1.symm.trans hf
    · rw [hf] at h; cases h
  exact owner_of hp (h2.respCb.symm.trans ha) hm (fun a b c' a' b' c'' => h.one _ a b c' a' b' c'')

/-- A pending Association Setup Request has on_pfcp_assoc_resp(). -/
theorem UseInv.entryAssoc {T R} {ep : Ep} {e fi} (h : UseInv T R ep) (he : e ∈ ep.reqs) (ha : AssocEntry ep.log fi e) :
    e.m.ctx.respCb = some Cb.assoc := by
  obtain ⟨m, h1, h2, _⟩ := h.queued e (List.mem_append_left _ he)
  obtain ⟨n1, t1, hp⟩ := live_passed h1
  obtain ⟨n1', t1', q, h5, h6, -⟩ := owner_spec ha
  cases h.one _ _ _ _ _ _ _ hp h5
  exact h2.respCb.trans h6

theorem accepted_iff {m : PMsg} : m.accepted = true ↔ RequestAccepted m := by
  unfold PMsg.accepted RequestAccepted
  split
  · rename_i c l h
    rw [h]
    simp only [decide_eq_true_eq, Option.some.injEq, List.cons.injEq, Val.leaf.injEq, IeVal.cause.injEq]
    exact ⟨fun h => ⟨l, h, rfl⟩, fun ⟨_, h, _⟩ => h⟩
  · rename_i h
    simp only [Bool.false_eq_true, false_iff]
    rintro ⟨l, hl⟩
    exact h 1 l hl

/-- on_pfcp_assoc_resp() is called for the pending request `e`. -/
theorem Both.assocResp {T R} {ep ep' : Ep} {e resp cb} (h : Both T R none none ep) (he : e ∈ ep.reqs)
    (hid : e.id < ep.nextId) (ha : e.m.ctx.respCb = some Cb.assoc) (hcb : Keeps cb)
    (hm : ∀ m, resp = some m → m.accepted = true → ∃ k t, .respCb e.id (some k) t ∈ ep.log ∧ .received k m ∈ ep.log ∧
      m.isResponse = true ∧ m.h.seq = e.m.h.seq)
    (hx : ep.assocResp e.m.ctx resp cb = .ok ep') : Both T R (some e.id) none ep' := by
  unfold Ep.assocResp at hx
  cases hf : e.m.ctx.peerFi with
  | none => rw [hf] at hx; cases hx
  | some fi =>
    rw [hf] at hx
    dsimp only at hx
    have hae : AssocEntry ep.log fi e := h.use.assocEntry he ha hf
    obtain ⟨p, hp, hs, hreq⟩ := h.peer.pend fi e he hae (by simp)
    have hfi := peer?_fi hp
    rw [hp] at hx
    dsimp only at hx
    have hmine : ∀ y ∈ ep.reqs, AssocEntry ep.log fi y → some y.id = some e.id := fun y hy hay =>
      congrArg some (h.peer.one fi y hy e he hay hae (by simp) (by simp))
    have hother : ∀ y ∈ ep.reqs, some y.id = some e.id → some e.id = none ∨ AssocEntry ep.log fi y := by
      intro y hy hyi
      have h1 := look_of_mem h.use.nodupReqs hy
      have h2 := look_of_mem h.use.nodupReqs he
      rw [Option.some.inj hyi, h2] at h1
      cases h1
      exact .inr hae
    have hc' : ∀ id, some e.id = some id → id < ep.nextId := by rintro _ ⟨⟩; exact hid
    have retry : Both T R (some e.id) none (ep.peerChg fi .waitRetry) :=
      h.peerChg hp (by rw [hs]; rfl) (by rw [hs]; simp) (.inr (.inl rfl)) (.inl rfl) hc' hmine hother (.inl rfl) (fun h => by cases h) (fun h => by cases h)
    cases resp with
    | none => cases hx; exact retry
    | some m =>
      dsimp only at hx
      split at hx
      · cases hx; exact retry
      rename_i hacc
      rw [if_neg (by simp [hs])] at hx
      have hacc' : m.accepted = true := by simpa using hacc
      obtain ⟨k, t, h1, h2, h3, h4⟩ := hm m rfl hacc'
      have hA : Accepted fi p.remote ep.log := ⟨e.id, e.m.h.seq, k, m, t, hreq, h1, h2, h3, h4, accepted_iff.mp hacc'⟩
      cases hcb0 : p.hasCb with
      | false =>
        simp only [hcb0, Bool.false_eq_true, if_false] at hx
        cases hx
        exact h.peerChg hp (by rw [hs]; rfl) (by rw [hs]; simp) (.inr (.inr ⟨rfl, hcb0⟩)) (.inl rfl) hc' hmine hother (.inl rfl) (fun h => by cases h)
          (fun _ => hA)
      | true =>
        simp only [hcb0, if_true] at hx
        refine hcb _ _ _ _ _ ?_ hx
        rw [peerChg_some hp (by rw [hs]; rfl)]
        refine h.chg (l := [.peer fi (.assocCb true), .peer fi (.state .associated)]) ?_ rfl (by simp [dull]) rfl rfl rfl rfl
        refine h.peer.chg (new := .associated) hp (by rw [hs]; rfl) (by rw [hs]; simp) rfl ?_ rfl rfl rfl (.inr (.inr rfl)) (.inl rfl) hc' hmine hother (.inl rfl)
          (fun h => by cases h) (fun _ => hA)
        rw [if_pos ⟨rfl, hcb0⟩]
        rfl

/-- osmo_pfcp_queue_del() of a request whose resp_cb() was called, or that is not an Association Setup Request of
a CP peer. -/
theorem Both.queueDel {T R c} {ep ep' : Ep} {id} (h : Both T R c none ep) (hm : ∃ e ∈ ep.reqs ++ ep.resps, e.id = id)
    (hc : c = some id ∨ c = none ∧ ∀ e ∈ ep.reqs, e.id = id → e.m.ctx.respCb ≠ some Cb.assoc)
    (hd : ep.queueDel id = .ok ep') : Both T R none none ep' := by
  refine ⟨h.use.queueDel hm hd, ?_⟩
  obtain ⟨ep1, h1, hd⟩ := Res.bind_eq_ok hd
  cases hd
  obtain ⟨rfl, -⟩ := releaseUses_ok h1
  refine h.peer.frame [.freed id] rfl (by simp [plain]) rfl (by simp) ?_ ?_ ?_
  · rcases h.peer.t26 with h | h
    · exact .inl h
    · exact .inr (.tail _ h)
  · intro fi e he ha _
    obtain ⟨h1, h2⟩ := List.mem_filter.mp he
    refine ⟨e, h1, ha, ?_, rfl, rfl⟩
    rcases hc with rfl | ⟨rfl, _⟩
    · simpa using h2
    · simp
  · intro fi e he ha hne
    refine .inl ⟨e, List.mem_filter.mpr ⟨he, ?_⟩, ha, by simp⟩
    rcases hc with rfl | ⟨rfl, hc⟩
    · simpa using hne
    · simp only [ne_eq, decide_eq_true_eq]
      intro hi
      exact hc e he hi (h.use.entryAssoc he ha)

/-- A message in a queue is the same as before. -/
theorem same_message {T R T' R'} {ep ep' : Ep} {l e e'} (h : UseInv T R ep) (h' : UseInv T' R' ep') (hl : ep'.log = l ++ ep.log)
    (he : e ∈ ep.reqs ++ ep.resps) (he' : e' ∈ ep'.reqs ++ ep'.resps) (hi : e'.id = e.id) :
    e'.m.ctx.respCb = e.m.ctx.respCb ∧ e'.m.h = e.m.h := by
  obtain ⟨m, h1, h2, h3⟩ := h.queued e he
  obtain ⟨m', k1, k2, k3⟩ := h'.queued e' he'
  obtain ⟨n1, t1, hp⟩ := live_passed h1
  obtain ⟨n1', t1', hp'⟩ := live_passed k1
  dsimp only at hp hp'
  rw [hi] at hp'
  have : m' = m := h'.one _ _ _ _ _ _ _ hp' (by rw [hl]; exact List.mem_append_right _ hp)
  subst this
  exact ⟨k2.respCb.trans h2.respCb.symm, k3.trans h3.symm⟩

/-- The queue entry of a request changes, but not its context. -/
theorem Both.setReq {T R c x} {ep : Ep} (h : Both T R c x ep) {e e0 : QEntry} (h0 : e0 ∈ ep.reqs) (hi : e.id = e0.id)
    (hc : e.m.ctx = e0.m.ctx) (hh : e.m.h = e0.m.h) : Both T R c x { ep with reqs := setEntry ep.reqs e } := by
  refine ⟨h.use.setReq h0 hi hc hh, ?_⟩
  obtain ⟨-, -, k3⟩ := setEntry_ctx h0 h.use.nodupReqs hi hc hh
  refine h.peer.frame [] rfl (by simp) rfl h.peer.called h.peer.t26 ?_ ?_
  · intro fi y' hy' ha hne
    obtain ⟨y, hy, h1, h2, h3⟩ := k3 y' hy'
    exact ⟨y, hy, by unfold AssocEntry at ha ⊢; rw [← h1]; exact ha, h1 ▸ hne, h1, h3⟩
  · intro fi y hy ha hne
    left
    refine ⟨if y.id = e.id then e else y, List.mem_map.mpr ⟨y, hy, rfl⟩, ?_⟩
    split
    · rename_i hyi
      have : y = e0 := by
        have h1 := look_of_mem h.use.nodupReqs hy
        have h2 := look_of_mem h.use.nodupReqs h0
        rw [hyi, hi, h2] at h1
        exact (Option.some.inj h1).symm
      subst this
      exact ⟨by unfold AssocEntry at ha ⊢; rw [hi]; exact ha, hi ▸ hne⟩
    · exact ⟨ha, hne⟩

/-- The queue entry of a response changes, but not its context. -/
theorem Both.setResp {T R c x} {ep : Ep} (h : Both T R c x ep) {e e0 : QEntry} (h0 : e0 ∈ ep.resps) (hi : e.id = e0.id)
    (hc : e.m.ctx = e0.m.ctx) (hh : e.m.h = e0.m.h) : Both T R c x { ep with resps := setEntry ep.resps e } :=
  ⟨h.use.setResp h0 hi hc hh, h.peer.same [] rfl (by simp) rfl (Nat.le_refl _) rfl rfl fun _ _ => rfl⟩

/-- The end of a pending request, by timer. -/
theorem Both.giveUp {T R} {ep ep' : Ep} {e : QEntry} {a : App} (h : Both T R none none ep) (he : e ∈ ep.reqs)
    (hx : (if e.m.hasCb = true then
        (ep.note (.respCb e.id none ep.now)).using e.id fun ep =>
          if e.m.ctx.respCb = some Cb.assoc then ep.assocResp e.m.ctx none .ok else a.run ep
      else .ok ep).bind (fun ep => if (ep.reqs.any fun x => x.id = e.id) = true then ep.queueDel e.id else Res.ub) = .ok ep') :
    Both T R none none ep' := by
  obtain ⟨ep1, h1, hx⟩ := Res.bind_eq_ok hx
  split at hx
  rotate_left
  · cases hx
  rename_i hany
  have hm : ∃ x ∈ ep1.reqs ++ ep1.resps, x.id = e.id := by
    obtain ⟨x, hx, hxi⟩ := List.any_eq_true.mp hany
    exact ⟨x, List.mem_append_left _ hx, by simpa using hxi⟩
  split at h1
  · obtain ⟨ep2, h2, h1⟩ := Res.bind_eq_ok h1
    cases h1
    have hb := (h.note (e := .respCb e.id none ep.now) rfl).busy (e.id :: ep.busy)
    split at h2
    · rename_i ha
      have h3 := hb.assocResp he (h.use.queuedOld e (List.mem_append_left _ he)) ha ok_keeps (by intro m hm; cases hm) h2
      exact (h3.busy _).queueDel hm (.inl rfl) hx
    · rename_i ha
      have h3 := run_keeps a _ _ _ _ _ hb h2
      obtain ⟨l, hl, _⟩ := (run_api a _ _ h2).log
      refine (h3.busy _).queueDel hm (.inr ⟨rfl, ?_⟩) hx
      intro y hy hyi
      have := same_message hb.use h3.use hl (List.mem_append_left _ he) (List.mem_append_left _ hy) hyi
      rw [this.1]
      exact ha
  · rename_i hc
    cases h1
    refine h.queueDel hm (.inr ⟨rfl, ?_⟩) hx
    intro y hy hyi
    have := same_message (l := []) h.use h.use rfl (List.mem_append_left _ he) (List.mem_append_left _ hy) hyi
    rw [this.1]
    intro hh
    simp [PMsg.hasCb, hh] at hc

/-- pfcp_queue_retrans() keeps the invariants and the request that it retransmits. -/
theorem Both.retrans {T R} {ep ep1 : Ep} {e : QEntry} {io keep} (h : Both T R none none ep) (he : e ∈ ep.reqs)
    (h1 : ({ ep with reqs := setEntry ep.reqs { e with timer := none } } : Ep).retrans { e with timer := none } io = .ok (ep1, keep)) :
    Both T R none none ep1 ∧ ∃ e1 ∈ ep1.reqs, e1.id = e.id ∧ e1.m.ctx = e.m.ctx := by
  have h0 : Both T R none none { ep with reqs := setEntry ep.reqs { e with timer := none } } := h.setReq he rfl rfl rfl
  have m0 : { e with timer := none } ∈ setEntry ep.reqs { e with timer := none } :=
    List.mem_map.mpr ⟨e, he, by simp⟩
  unfold Ep.retrans at h1
  split at h1
  · cases h1
    exact ⟨h0, _, m0, rfl, rfl⟩
  · obtain ⟨⟨ep2, m2, rc⟩, h2, h1⟩ := Res.bind_eq_ok h1
    have h3 := h0.sendMsg h2
    dsimp only at h3
    have key : ep2.reqs = setEntry ep.reqs { e with timer := none } ∧ m2.ctx = e.m.ctx ∧ m2.h = e.m.h := by
      rcases sendMsg_ok h2 with ⟨o, _, _, _, hr2⟩ | ⟨l, er, enc, _, _, hr2⟩ <;> cases hr2 <;> exact ⟨rfl, rfl, rfl⟩
    have m2' : { e with timer := none } ∈ ep2.reqs := by rw [key.1]; exact m0
    cases rc with
    | none =>
      cases h1
      refine ⟨h3.setReq m2' rfl key.2.1 key.2.2, _, List.mem_map.mpr ⟨_, m2', if_pos rfl⟩, rfl, key.2.1⟩
    | some er =>
      cases h1
      refine ⟨h3.setReq m2' rfl key.2.1 key.2.2, _, List.mem_map.mpr ⟨_, m2', if_pos rfl⟩, rfl, key.2.1⟩

/-- The end of a pending request can abort only in the application's resp_cb(). -/
theorem Both.giveUp_abort {T R} {ep : Ep} {e : QEntry} {a : App} (h : Both T R none none ep) (he : e ∈ ep.reqs)
    (hx : (if e.m.hasCb = true then
        (ep.note (.respCb e.id none ep.now)).using e.id fun ep =>
          if e.m.ctx.respCb = some Cb.assoc then ep.assocResp e.m.ctx none .ok else a.run ep
      else .ok ep).bind (fun ep => if (ep.reqs.any fun x => x.id = e.id) = true then ep.queueDel e.id else Res.ub) = .abort) :
    ∃ ep1, a.run ep1 = .abort := by
  have hdel : ∀ ep1 : Ep, UseInv T R ep1 →
      (if (ep1.reqs.any fun x => x.id = e.id) = true then ep1.queueDel e.id else Res.ub) ≠ .abort := by
    intro ep1 hu hh
    split at hh
    · obtain ⟨x, hq⟩ := hu.queueDel_total e.id
      rw [hq] at hh
      cases hh
    · cases hh
  split at hx
  · have hb := (h.note (e := .respCb e.id none ep.now) rfl).busy (e.id :: ep.busy)
    unfold Ep.using at hx
    split at hx
    · rename_i ha
      exfalso
      cases h2 : Ep.assocResp ({ ep.note (.respCb e.id none ep.now) with busy := e.id :: ep.busy } : Ep) e.m.ctx none .ok with
      | ok x =>
        have h3 := hb.assocResp he (h.use.queuedOld e (List.mem_append_left _ he)) ha ok_keeps (by intro m hm; cases hm) h2
        simp only [Ep.note] at h2 hx
        rw [h2] at hx
        exact hdel _ (h3.busy _).use hx
      | abort =>
        unfold Ep.assocResp at h2
        split at h2
        · cases h2
        · split at h2 <;> cases h2
      | err x => simp only [Ep.note] at h2 hx; rw [h2] at hx; cases hx
      | ub => simp only [Ep.note] at h2 hx; rw [h2] at hx; cases hx
      | diverge => simp only [Ep.note] at h2 hx; rw [h2] at hx; cases hx
    · cases h2 : a.run ({ ep.note (.respCb e.id none ep.now) with busy := e.id :: ep.busy } : Ep) with
      | ok x =>
        have h3 := run_keeps a _ _ _ _ _ hb h2
        simp only [Ep.note] at h2 hx
        rw [h2] at hx
        exact absurd hx (hdel _ (h3.busy _).use)
      | abort => exact ⟨_, h2⟩
      | err x => simp only [Ep.note] at h2 hx; rw [h2] at hx; cases hx
      | ub => simp only [Ep.note] at h2 hx; rw [h2] at hx; cases hx
      | diverge => simp only [Ep.note] at h2 hx; rw [h2] at hx; cases hx
  · exact absurd hx (hdel _ h.use)

theorem Both.reqTimer {T R} {ep ep' : Ep} {id io} {a : App} (h : Both T R none none ep) (hx : ep.reqTimer id io a.run = .ok ep') :
    Both T R none none ep' := by
  unfold Ep.reqTimer at hx
  cases hf : ep.reqs.find? (fun e => e.id = id) with
  | none => rw [hf] at hx; cases hx; exact h
  | some e =>
    rw [hf] at hx
    dsimp only at hx
    obtain ⟨he, rfl⟩ := find_id hf
    by_cases hex : e.expired ep.now = true
    rotate_left
    · rw [if_pos hex] at hx; cases hx; exact h
    rw [if_neg (by simpa using hex)] at hx
    by_cases hr : e.m.isResponse = true
    · rw [if_pos hr] at hx; cases hx
    rw [if_neg hr] at hx
    obtain ⟨⟨ep1, keep⟩, h1, hx⟩ := Res.bind_eq_ok hx
    have hb1 := h.retrans he h1
    dsimp only at hx
    split at hx
    · cases hx; exact hb1.1
    · obtain ⟨hb, e1, he1, hi1, hc1⟩ := hb1
      refine hb.giveUp (e := e1) (a := a) he1 ?_
      have : e1.m.hasCb = e.m.hasCb := by unfold PMsg.hasCb; rw [hc1]
      rw [hi1, hc1, this]
      exact hx

theorem Both.respTimer {T R} {ep ep' : Ep} {id} (h : Both T R none none ep) (hd : ((ep.reqs ++ ep.resps).map (·.id)).Nodup)
    (hx : ep.respTimer id = .ok ep') : Both T R none none ep' := by
  unfold Ep.respTimer at hx
  cases hf : ep.resps.find? (fun e => e.id = id) with
  | none => rw [hf] at hx; cases hx; exact h
  | some e =>
    rw [hf] at hx
    dsimp only at hx
    obtain ⟨he, rfl⟩ := find_id hf
    split at hx
    · cases hx; exact h
    split at hx
    · cases hx
    refine h.queueDel ⟨e, List.mem_append_right _ he, rfl⟩ (.inr ⟨rfl, ?_⟩) hx
    intro y hy hyi
    rw [List.map_append, List.nodup_append] at hd
    exact absurd hyi (hd.2.2 _ (List.mem_map_of_mem hy) _ (List.mem_map_of_mem he))

/-! ### Reception -/

theorem Both.take {T R c x} {ep : Ep} (h : Both T R c x ep) (us) : Both T (us ++ R) c x (ep.takeUses us) :=
  ⟨h.use.take us, h.peer.same [] rfl (by simp) rfl (Nat.le_refl _) rfl rfl fun _ _ => rfl⟩

theorem Both.release {T R c x} {ep ep' : Ep} {us} (h : Both T (us ++ R) c x ep) (hr : ep.releaseUses us = .ok ep') : Both T R c x ep' := by
  refine ⟨h.use.release hr, ?_⟩
  obtain ⟨rfl, _⟩ := releaseUses_ok hr
  exact h.peer.same [] rfl (by simp) rfl (Nat.le_refl _) rfl rfl fun _ _ => rfl

theorem Both.setCtx {T R c} {ep ep' : Ep} {k req r} (h : Both T R c none ep) (hx : ep.setCtx k req r = .ok ep') :
    Both T (ep.rxUses r ++ R) c none ep' := by
  unfold Ep.setCtx at hx
  split at hx
  · exact run_keeps _ _ _ _ _ _ ((h.note rfl).take _) hx
  · rename_i hs
    cases hx
    unfold Ep.rxUses
    rw [if_neg hs]
    exact h

theorem Both.dispatch {T R c} {ep ep' : Ep} {k req r} (h : Both T R c none ep) (hx : ep.dispatch k req r = .ok ep') :
    Both T R c none ep' := run_keeps _ _ _ _ _ _ (h.note rfl) hx

theorem Both.handleDuplicate {T R} {ep ep' : Ep} {k prev r} (h : Both T R none none ep)
    (hx : ep.handleDuplicate k prev r = .ok ep') : Both T (ep.rxUses r ++ R) none none ep' := by
  obtain ⟨ep1, h1, hx⟩ := Res.bind_eq_ok hx
  obtain ⟨ep2, h2, he1⟩ := Res.bind_eq_ok h1
  cases he1
  have h3 := ((h.busy (prev.id :: ep.busy)).setCtx h2).busy ep.busy
  dsimp only at hx
  cases hf : ep2.resps.find? (fun e => e.id = prev.id) with
  | none => rw [hf] at hx; cases hx
  | some e =>
    rw [hf] at hx
    dsimp only at hx
    obtain ⟨he, -⟩ := find_id hf
    obtain ⟨⟨ep4, m4, rc⟩, h4, hx⟩ := Res.bind_eq_ok hx
    cases hx
    have h5 := h3.sendMsg h4
    have key : ep4.resps = ep2.resps ∧ m4.ctx = e.m.ctx ∧ m4.h = e.m.h := by
      rcases sendMsg_ok h4 with ⟨o, _, _, _, hr2⟩ | ⟨l, er, enc, _, _, hr2⟩ <;> cases hr2 <;> exact ⟨rfl, rfl, rfl⟩
    exact h5.setResp (e0 := e) (key.1 ▸ he) rfl key.2.1 key.2.2

theorem Both.handleResponse {T R} {ep ep' : Ep} {k m prev r} (h : Both T R none none ep) (hp : prev ∈ ep.reqs)
    (hseq : prev.m.h.seq = m.h.seq) (hm : m.isResponse = true) (hk : .received k m ∈ ep.log)
    (hx : ep.handleResponse k m prev r = .ok ep') : Both T (ep.rxUses r ++ R) none none ep' := by
  obtain ⟨ep1, h1, hx⟩ := Res.bind_eq_ok hx
  obtain ⟨ep2, h2, he1⟩ := Res.bind_eq_ok h1
  cases he1
  dsimp only at hx
  split at hx
  rotate_left
  · cases hx
  rename_i hany
  have hmem : ∃ x ∈ ep2.reqs ++ ep2.resps, x.id = prev.id := by
    obtain ⟨x, hx, hxi⟩ := List.any_eq_true.mp hany
    exact ⟨x, List.mem_append_left _ hx, by simpa using hxi⟩
  obtain ⟨ep3, h3, h2⟩ := Res.bind_eq_ok h2
  have hb0 := h.busy (prev.id :: ep.busy)
  have hb3 := hb0.setCtx h3
  obtain ⟨l3, hl3, -⟩ := setCtx_adds h3
  have hl3' : ep3.log = l3 ++ ep.log := hl3
  have hrx : ({ ep with busy := prev.id :: ep.busy } : Ep).rxUses r = ep.rxUses r := rfl
  rw [hrx] at hb3
  -- it suffices that its resp_cb() was called, or that it is not one of a CP peer
  suffices hs : ∃ c, Both T (ep.rxUses r ++ R) c none ep2 ∧
      (c = some prev.id ∨ c = none ∧ ∀ e ∈ ep2.reqs, e.id = prev.id → e.m.ctx.respCb ≠ some Cb.assoc) by
    obtain ⟨c, hs, hc⟩ := hs
    exact (hs.busy ep.busy).queueDel hmem hc hx
  have notAssoc : prev.m.ctx.respCb ≠ some Cb.assoc → ∀ {ep4 : Ep} {l4 : List Event}, ep4.log = l4 ++ ep3.log →
      Both T (ep.rxUses r ++ R) none none ep4 → ∀ e ∈ ep4.reqs, e.id = prev.id → e.m.ctx.respCb ≠ some Cb.assoc := by
    intro hna ep4 l4 hl4 hb4 e he hei
    have := same_message (l := l4 ++ l3) h.use hb4.use (by rw [hl4, hl3', List.append_assoc]) (List.mem_append_left _ hp)
      (List.mem_append_left _ he) hei
    rw [this.1]
    exact hna
  by_cases hc : prev.m.hasCb = true
  · rw [if_pos hc] at h2
    obtain ⟨⟨ep4, rc⟩, h4, h2⟩ := Res.bind_eq_ok h2
    dsimp only at h2
    unfold Ep.respCall at h4
    split at h4
    · rename_i ha
      split at h4
      · cases h4
      rename_i e hf
      obtain ⟨he, hei⟩ := find_id hf
      have he' : e ∈ ep3.reqs := he
      obtain ⟨ep5, h5, h4⟩ := Res.bind_eq_ok h4
      cases h4
      rw [if_pos (by simp)] at h2
      cases h2
      have hsame := same_message (l := l3) h.use hb3.use hl3' (List.mem_append_left _ hp) (List.mem_append_left _ he') hei
      refine ⟨some prev.id, ?_, .inl rfl⟩
      have := (hb3.note (e := .respCb prev.id (some k) ep3.now) rfl).assocResp (e := e) (resp := some m) he'
        (hb3.use.queuedOld e (List.mem_append_left _ he')) (by rw [hsame.1]; exact ha) (run_keeps r.onResp) ?_ h5
      · rw [hei] at this; exact this
      · rintro _ ⟨⟩ _
        refine ⟨k, ep3.now, ?_, ?_, hm, ?_⟩
        · rw [hei]; exact .head _
        · refine .tail _ ?_
          rw [hl3']
          exact List.mem_append_right _ hk
        · rw [hsame.2]; exact hseq.symm
    · rename_i ha
      obtain ⟨ep5, h5, h4⟩ := Res.bind_eq_ok h4
      cases h4
      have hb4 := run_keeps _ _ _ _ _ _ (hb3.note (e := .respCb prev.id (some k) ep3.now) rfl) h5
      obtain ⟨l4, hl4, -⟩ := (run_api _ _ _ h5).log
      have hl4' : ep4.log = (l4 ++ [.respCb prev.id (some k) ep3.now]) ++ ep3.log := by rw [hl4]; simp [Ep.note]
      split at h2
      · cases h2
        exact ⟨none, hb4, .inr ⟨rfl, notAssoc ha hl4' hb4⟩⟩
      · have hb5 := hb4.dispatch h2
        obtain ⟨l5, hl5, -⟩ := dispatch_adds h2
        exact ⟨none, hb5, .inr ⟨rfl, notAssoc ha (by rw [hl5, hl4', ← List.append_assoc]) hb5⟩⟩
  · rw [if_neg hc] at h2
    have hb5 := hb3.dispatch h2
    obtain ⟨l5, hl5, -⟩ := dispatch_adds h2
    refine ⟨none, hb5, .inr ⟨rfl, notAssoc ?_ hl5 hb5⟩⟩
    intro hh
    simp [PMsg.hasCb, hh] at hc

theorem handleMsg_both {ep1 ep2 : Ep} {k m r} (hb1 : Both [] [] none none ep1) (hk : .received k m ∈ ep1.log)
    (h2 : ep1.handleMsg k m r = .ok ep2) : Both [] (ep1.rxUses r ++ []) none none ep2 ∧ ep2.cfg = ep1.cfg := by
  unfold Ep.handleMsg at h2
  split at h2
  · rename_i prev hq
    by_cases hm : m.isResponse = true
    · rw [if_pos hm] at h2 hq
      obtain ⟨hq1, hq2⟩ := queueFind_some hq
      refine ⟨hb1.handleResponse hq1 hq2 hm hk h2, ?_⟩
      obtain ⟨ep3, h3, h2⟩ := Res.bind_eq_ok h2
      obtain ⟨ep4, h4, he3⟩ := Res.bind_eq_ok h3
      cases he3
      dsimp only at h2
      split at h2
      rotate_left
      · cases h2
      obtain ⟨ep5, h5, h4⟩ := Res.bind_eq_ok h4
      have c1 := (setCtx_api h5).1
      have c2 := (queueDel_api h2).cfg
      rw [c2, ← show ep5.cfg = ep1.cfg from c1]
      split at h4
      · obtain ⟨⟨ep6, rc⟩, h6, h4⟩ := Res.bind_eq_ok h4
        have c3 := (respCall_api h6).1.cfg
        dsimp only at h4 c3
        split at h4
        · cases h4; exact c3
        · exact (run_api _ _ _ h4).cfg.trans c3
      · exact (run_api _ _ _ h4).cfg
    · rw [if_neg hm] at h2 hq
      refine ⟨hb1.handleDuplicate h2, ?_⟩
      obtain ⟨ep3, h3, h2⟩ := Res.bind_eq_ok h2
      obtain ⟨ep4, h4, he3⟩ := Res.bind_eq_ok h3
      cases he3
      have c1 := (setCtx_api h4).1
      dsimp only at h2
      split at h2
      · cases h2
      obtain ⟨⟨ep5, m5, rc⟩, h5, h2⟩ := Res.bind_eq_ok h2
      cases h2
      rcases sendMsg_ok h5 with ⟨o, _, _, _, hr2⟩ | ⟨l, er, enc, _, _, hr2⟩ <;> cases hr2 <;> exact c1
  · obtain ⟨ep3, h3, h2⟩ := Res.bind_eq_ok h2
    exact ⟨(hb1.setCtx h3).dispatch h2, (run_api _ _ _ h2).cfg.trans (setCtx_api h3).1⟩

theorem Both.handleRx {ep ep' : Ep} {m r} (h : Both [] [] none none ep) (hx : ep.handleRx m r = .ok ep') :
    Both [] [] none none ep' := by
  unfold Ep.handleRx at hx
  obtain ⟨ep1, h1, hx⟩ := Res.bind_eq_ok hx
  obtain ⟨ep2, h2, hx⟩ := Res.bind_eq_ok hx
  have hb0 : Both [] [] none none ({ ep with nextId := ep.nextId + 1 }.note (.received ep.nextId m)) :=
    h.same [.received ep.nextId m] rfl (by simp [idle, dull, plain]) rfl (Nat.le_succ _) rfl rfl rfl rfl
  have hk : .received ep.nextId m ∈ ep1.log := by
    obtain ⟨l, hl⟩ := heartbeatReply_log h1
    rw [hl]
    simp [Ep.note]
  have hb1 : Both [] [] none none ep1 := by
    unfold Ep.heartbeatReply at h1
    split at h1
    · obtain ⟨⟨ep3, m3, rc⟩, h3, h1⟩ := Res.bind_eq_ok h1
      cases h1
      refine Both.sendMsg (ep := { ({ ep with nextId := ep.nextId + 1 }.note (.received ep.nextId m)) with
        nextId := ({ ep with nextId := ep.nextId + 1 }.note (.received ep.nextId m)).nextId + 1 }) ?_ h3
      exact hb0.same [] rfl (by simp) rfl (Nat.le_succ _) rfl rfl rfl rfl
    · cases h1; exact hb0
  have key : Both [] (ep1.rxUses r ++ []) none none ep2 ∧ ep2.cfg = ep1.cfg := handleMsg_both hb1 hk h2
  have huse : ep2.rxUses r = ep1.rxUses r := by unfold Ep.rxUses; rw [key.2]
  refine key.1.release ?_
  rw [← huse]
  exact hx

theorem Both.handleAll {remote} : ∀ {l : List Rx} {rs} {ep ep' : Ep}, Both [] [] none none ep →
    ep.handleAll remote l rs = .ok ep' → Both [] [] none none ep'
  | [], _, ep, ep', h, hx => by cases hx; exact h
  | ⟨_, none⟩ :: l, rs, ep, ep', h, hx => Both.handleAll (l := l) h hx
  | ⟨d, some ies⟩ :: l, rs, ep, ep', h, hx => by
    obtain ⟨ep1, h1, hx⟩ := Res.bind_eq_ok hx
    exact Both.handleAll (h.handleRx h1) hx

theorem Both.step {ep ep' : Ep} {op : Op} (h : Both [] [] none none ep) (hx : op.step ep = .ok ep') :
    Both [] [] none none ep' := by
  cases op with
  | app a => exact run_keeps a _ _ _ _ _ h hx
  | rx remote d rs =>
    have hx : ep.rxDatagram remote d rs = .ok ep' := hx
    unfold Ep.rxDatagram at hx
    dsimp only at hx
    split at hx
    · cases hx; exact h
    split at hx
    · cases hx
    obtain ⟨l, _, hx⟩ := Res.bind_eq_ok hx
    exact h.handleAll hx
  | advance ms => cases hx; exact h.same [] rfl (by simp) rfl (Nat.le_refl _) rfl rfl rfl rfl
  | reqTimer id io f => exact h.reqTimer hx
  | respTimer id =>
    refine h.respTimer ?_ hx
    have := h.use.ids
    simpa using this
  | peerTimer fi io => exact h.peerTimer hx

/-- After every history. -/
theorem Reached.both {ep : Ep} (h : Reached ep) : Both [] [] none none ep := by
  induction h with
  | create cfg n1 t1 keepResp time now => exact ⟨.init .., .init ..⟩
  | op o _ hx ih => exact ih.step hx
  | rx m r _ hx ih => exact ih.handleRx hx

end Verif
