/-
C95: closing the endpoint inside callbacks.
-/
import Verif.SpecCloseIn
import Verif.PropsSafe

namespace Verif
open Spec

/-- A function up the call stack uses a message that is in one of the queues. -/
def Held (id : Nat) (ep : Ep) : Prop := id ∈ ep.busy ∧ ∃ e ∈ ep.reqs ++ ep.resps, e.id = id

/-- ... and still does so afterwards. -/
def Holds (id : Nat) (f : Ep → Res Ep) : Prop := ∀ ep ep', Held id ep → f ep = .ok ep' → Held id ep'

section
variable {id : Nat}

theorem Held.same {a b : Ep} (h : Held id a) (hb : b.busy = a.busy) (hr : b.reqs = a.reqs) (hs : b.resps = a.resps) : Held id b := by
  unfold Held; rw [hb, hr, hs]; exact h

theorem Held.note {a : Ep} (h : Held id a) (e) : Held id (a.note e) := h.same rfl rfl rfl

theorem Held.peersOnly {a b : Ep} (h : Held id a) (hp : PeersOnly a b) : Held id b := by
  obtain ⟨_, _, _, rfl⟩ := hp
  exact h.same rfl rfl rfl

theorem Held.sendMsg {ep : Ep} {why i m io r} (h : Held id ep) (hs : ep.sendMsg why i m io = .ok r) : Held id r.1 := by
  rcases sendMsg_ok hs with ⟨o, _, _, _, rfl⟩ | ⟨l, e, enc, hl, henc, rfl⟩
  · exact h.same rfl rfl rfl
  · exact h.same rfl rfl rfl

theorem using_holds {i f} (hf : Holds id f) : Holds id fun ep => ep.using i f := by
  intro ep ep' h hx
  obtain ⟨ep1, h1, hx⟩ := Res.bind_eq_ok hx
  cases hx
  have := hf { ep with busy := i :: ep.busy } ep1 ⟨.tail _ h.1, h.2⟩ h1
  exact ⟨h.1, this.2⟩

theorem failCb_holds {i m cb} (hcb : Holds id cb) : Holds id fun ep => ep.failCb i m cb := by
  intro ep ep' h hx
  dsimp only [Ep.failCb] at hx
  split at hx
  · exact using_holds hcb _ _ (h.note _) hx
  · cases hx; exact h

theorem tx_holds {m io cb} (hcb : Holds id cb) : Holds id fun ep => ep.tx m io cb := by
  intro ep ep' h hx
  dsimp only at hx
  rw [tx_eq] at hx
  obtain ⟨⟨ep1, m1, rc⟩, h1, hx⟩ := Res.bind_eq_ok hx
  have h2 : Held id ep1 := Held.sendMsg (Held.note (h.same (b := ep.begun m) (by simp) (by simp) (by simp)) _) h1
  dsimp only at hx
  cases rc with
  | some e =>
    obtain ⟨ep2, h3, hx⟩ := Res.bind_eq_ok hx
    obtain ⟨ep3, h4, hx⟩ := Res.bind_eq_ok hx
    cases hx
    exact (((failCb_holds hcb _ _ h2 h3).peersOnly (releaseUses_only h4)).note _).note _
  | none =>
    obtain ⟨ep2, h3, hx⟩ := Res.bind_eq_ok hx
    cases hx
    refine Held.note ?_ _
    unfold Ep.queueAdd at h3
    split at h3
    · exact failCb_holds hcb _ _ h2 h3
    obtain ⟨hb, e, he, hi⟩ := h2
    split at h3 <;> cases h3
    · refine ⟨hb, e, ?_, hi⟩
      rcases List.mem_append.1 he with he | he
      · exact List.mem_append_left _ he
      · exact List.mem_append_right _ (List.mem_append_left _ he)
    · refine ⟨hb, e, ?_, hi⟩
      rcases List.mem_append.1 he with he | he
      · exact List.mem_append_left _ (.tail _ he)
      · exact List.mem_append_right _ he

theorem Held.peerChg {ep : Ep} (h : Held id ep) (fi s) : Held id (ep.peerChg fi s) := by
  unfold Ep.peerChg
  split
  · exact h
  · split
    · exact h.same rfl rfl rfl
    · exact h

theorem assocResp_holds {ctx resp cb} (hcb : Holds id cb) : Holds id fun ep => ep.assocResp ctx resp cb := by
  intro ep ep' h hx
  dsimp only [Ep.assocResp] at hx
  split at hx
  · cases hx
  split at hx
  · cases hx
  split at hx
  · cases hx; exact h.peerChg _ _
  split at hx
  · cases hx; exact h.peerChg _ _
  split at hx
  · cases hx; exact h
  split at hx
  · exact hcb _ _ ((h.peerChg _ _).note _) hx
  · cases hx; exact h.peerChg _ _

theorem ok_holds : Holds id .ok := by intro ep ep' h hx; cases hx; exact h

theorem associate_holds {fi io} : Holds id fun ep => ep.associate fi io := by
  intro ep ep' h hx
  dsimp only [Ep.associate] at hx
  split at hx
  · cases hx; exact h
  split at hx
  · unfold Ep.assocStart at hx
    split at hx
    · cases hx; exact h
    obtain ⟨ep1, h1, hx⟩ := Res.bind_eq_ok hx
    cases hx
    have := tx_holds (assocResp_holds ok_holds) _ _ ((h.peerChg fi .waitAssoc).peersOnly (takeUses_only _ _)) h1
    split
    · exact this.peerChg _ _
    · exact this
  · cases hx; exact h

theorem txDirect_holds {m io why} : Holds id fun ep => ep.txDirect m io why := by
  intro ep ep' h hx
  obtain ⟨⟨ep1, m1, rc⟩, h1, hx⟩ := Res.bind_eq_ok hx
  cases hx
  exact Held.sendMsg (ep := { ep with nextId := ep.nextId + 1 }) (h.same rfl rfl rfl) h1

theorem Held.close {ep : Ep} (h : Held id ep) : ep.close = .ub := by
  obtain ⟨hb, e, he, hi⟩ := h
  refine if_pos (List.any_eq_true.2 ⟨e, he, ?_⟩)
  rw [hi]
  simpa using hb

theorem Held.invalidate {ep : Ep} (h : Held id ep) (fi) : Held id (ep.invalidate fi) := by
  obtain ⟨hb, e, he, hi⟩ := h
  refine ⟨hb, { e with m := msgInvalidateCtx e.m fi }, ?_, hi⟩
  rcases List.mem_append.1 he with he | he
  · exact List.mem_append_left _ (List.mem_map.2 ⟨e, he, rfl⟩)
  · exact List.mem_append_right _ (List.mem_map.2 ⟨e, he, rfl⟩)

/-- While a message is held, a program of the application does not close the endpoint, or does not return. -/
theorem run_holds : ∀ a : App, ∀ ep ep', Held id ep → a.run ep = .ok ep' → Held id ep' ∧ ¬ a.Closes := by
  intro a
  induction a with
  | done => intro ep ep' h hx; cases hx; exact ⟨h, nofun⟩
  | tx m io f r hf hr =>
    intro ep ep' h hx
    unfold App.run at hx
    split at hx
    · cases hx
    obtain ⟨ep1, h1, hx⟩ := Res.bind_eq_ok hx
    exact hr _ _ (tx_holds (fun a b h h' => (hf a b h h').1) _ _ (h.peersOnly (takeUses_only _ _)) h1) hx
  | txData m io r hr =>
    intro ep ep' h hx
    obtain ⟨ep1, h1, hx⟩ := Res.bind_eq_ok hx
    exact hr _ _ (txDirect_holds _ _ h h1) hx
  | heartbeat remote io r hr =>
    intro ep ep' h hx
    obtain ⟨ep1, h1, hx⟩ := Res.bind_eq_ok hx
    exact hr _ _ (txDirect_holds (ep.draw (heartbeatReq remote ep.rts)).1 _ (h.same rfl rfl rfl) h1) hx
  | invalidate fi r hr => intro ep ep' h hx; exact hr _ _ (h.invalidate fi) hx
  | setSeq s r hr => intro ep ep' h hx; exact hr { ep with seq := s, resets := ep.resets + 1 } _ (h.same rfl rfl rfl) hx
  | setTimers n1 t1 kr r hr =>
    intro ep ep' h hx
    exact hr (Ep.note { ep with n1 := n1, t1 := t1, keepResp := kr } (.config n1 t1 kr)) _ (h.same rfl rfl rfl) hx
  | close r hr =>
    intro ep ep' h hx
    obtain ⟨ep1, h1, hx⟩ := Res.bind_eq_ok hx
    rw [h.close] at h1; cases h1
  | bind ok r hr =>
    intro ep ep' h hx
    obtain ⟨ep1, h1, hx⟩ := Res.bind_eq_ok hx
    obtain ⟨ep2, h2, h1⟩ := Res.bind_eq_ok h1
    rw [h.close] at h2; cases h2
  | setT26 t r hr => intro ep ep' h hx; exact hr (Ep.note { ep with t26 := t } (.configT26 t)) _ (h.same rfl rfl rfl) hx
  | newPeer fi remote r hr => intro ep ep' h hx; exact hr _ _ (h.peersOnly (newPeer_only ep fi remote)) hx
  | setAssocCb fi b r hr =>
    intro ep ep' h hx
    refine hr (ep.setAssocCb fi b) _ ?_ hx
    unfold Ep.setAssocCb
    split
    · exact h
    · exact h.same rfl rfl rfl
  | associate fi io r hr =>
    intro ep ep' h hx
    obtain ⟨ep1, h1, hx⟩ := Res.bind_eq_ok hx
    exact hr _ _ (associate_holds _ _ h h1) hx

theorem setCtx_holds {k req r} {ep ep' : Ep} (h : Held id ep) (hx : ep.setCtx k req r = .ok ep') :
    Held id ep' ∧ (ep.cfg.hasSetCtx = true → ¬ r.onCtx.Closes) := by
  unfold Ep.setCtx at hx
  split at hx
  · obtain ⟨h1, h2⟩ := run_holds _ _ _ ((h.note _).peersOnly (takeUses_only _ _)) hx
    exact ⟨h1, fun _ => h2⟩
  · rename_i hc
    cases hx
    exact ⟨h, fun hs => absurd hs hc⟩

end

theorem queueFind_eq {q : List QEntry} {rx : PMsg} (hq : ∀ e ∈ q, e.m.isResponse = !rx.isResponse) :
    queueFind q rx = q.find? fun e => e.m.h.seq = rx.h.seq := by
  induction q with
  | nil => rfl
  | cons e q ih =>
    unfold queueFind at ih ⊢
    rw [List.find?_cons, List.find?_cons, ih fun x hx => hq x (.tail _ hx), hq e (.head _)]
    cases rx.isResponse <;> simp [BEq.beq]

theorem heartbeatReply_queues {ep ep' : Ep} {k m io} (h : ep.heartbeatReply k m io = .ok ep') :
    ep'.reqs = ep.reqs ∧ ep'.resps = ep.resps ∧ ep'.busy = ep.busy ∧ ep'.cfg = ep.cfg ∧ ep'.peers = ep.peers := by
  unfold Ep.heartbeatReply at h
  split at h
  · obtain ⟨⟨ep1, m1, rc⟩, h1, h⟩ := Res.bind_eq_ok h
    cases h
    rcases sendMsg_ok h1 with ⟨o, _, _, _, hr⟩ | ⟨l, e, enc, hl, henc, hr⟩ <;> cases hr <;> exact ⟨rfl, rfl, rfl, rfl, rfl⟩
  · cases h; exact ⟨rfl, rfl, rfl, rfl, rfl⟩

/-- What happens before a message is looked up. -/
theorem handleRx_ok {ep ep' : Ep} {m r} (h : ep.handleRx m r = .ok ep') : ∃ ep1 ep2 : Ep, ep1.reqs = ep.reqs ∧ ep1.resps = ep.resps ∧
    ep1.busy = ep.busy ∧ ep1.cfg = ep.cfg ∧ ep1.peers = ep.peers ∧ ep1.handleMsg ep.nextId m r = .ok ep2 := by
  obtain ⟨ep1, h1, h⟩ := Res.bind_eq_ok h
  obtain ⟨ep2, h2, h⟩ := Res.bind_eq_ok h
  obtain ⟨a, b, c, d, e⟩ := heartbeatReply_queues h1
  exact ⟨ep1, ep2, a, b, c, d, e, h2⟩

theorem handleRx_unmatched {own : Nat → Prop} {nid : NodeId} {ep : Ep} {m r} (hn : InRange (.nodeId nid)) (h : Both [] [] none none ep)
    (hc : Calm own nid ep) (hbusy : ep.busy = []) (hq : ∀ e ∈ if m.isResponse then ep.reqs else ep.resps, e.m.h.seq ≠ m.h.seq)
    (hr : r.Loose own nid) : ∃ ep', ep.handleRx m r = .ok ep' := by
  have hb0 : Both [] [] none none ({ ep with nextId := ep.nextId + 1 }.note (.received ep.nextId m)) :=
    h.same [.received ep.nextId m] rfl (by simp [idle, dull, plain]) rfl (Nat.le_succ _) rfl rfl rfl rfl
  have hc0 : Calm own nid ({ ep with nextId := ep.nextId + 1 }.note (.received ep.nextId m)) :=
    hc.same [.received ep.nextId m] rfl (by simp [harmless]) rfl rfl rfl rfl rfl rfl
  obtain ⟨ep1, h1, hb1, c1, hk⟩ := heartbeatReply_total (k := ep.nextId) (io := r.io) hb0 hc0 (.head _)
  obtain ⟨q1, q2, q3, -⟩ := heartbeatReply_queues h1
  have hy1 : ep1.busy = [] := q3.trans hbusy
  have h2 : ∃ ep2, ep1.handleMsg ep.nextId m r = .ok ep2 := by
    unfold Ep.handleMsg
    have hf : queueFind (if m.isResponse = true then ep1.reqs else ep1.resps) m = none := by
      cases hf : queueFind (if m.isResponse = true then ep1.reqs else ep1.resps) m with
      | none => rfl
      | some e =>
        obtain ⟨f1, f2⟩ := queueFind_some hf
        rw [q1, q2] at f1
        exact absurd f2 (hq e f1)
    rw [hf]
    dsimp only
    have h3 : ∃ ep3, ep1.setCtx ep.nextId none r = .ok ep3 ∧ Calm own nid ep3 := by
      unfold Ep.setCtx
      split
      · have hb2 : Both [] (ep1.rxUses r ++ []) none none ((ep1.note (.setCtx ep.nextId none)).takeUses (ep1.rxUses r)) :=
          (hb1.note (e := .setCtx ep.nextId none) rfl).take _
        have c2 : Calm own nid ((ep1.note (.setCtx ep.nextId none)).takeUses (ep1.rxUses r)) := (c1.note rfl).use _
        obtain ⟨ep3, h3⟩ := run_total hn _ hr.1 _ _ _ _ hb2 c2 (fun _ i hi => by
          have : i ∈ ep1.busy := hi
          rw [hy1] at this; cases this)
        exact ⟨ep3, h3, (run_calms _ hr.1 _ _ c2 h3).1⟩
      · exact ⟨_, rfl, c1⟩
    obtain ⟨ep3, h3, c3⟩ := h3
    rw [h3]
    refine run_total hn _ hr.2 _ _ _ _ ((hb1.setCtx h3).note rfl) (c3.note rfl) fun _ i hi => ?_
    have : i ∈ ep3.busy := hi
    rw [(setCtx_none_goes h3).1, hy1] at this
    cases this
  obtain ⟨ep2, h2⟩ := h2
  unfold Ep.handleRx
  dsimp only
  rw [h1]
  simp only [Res.bind_ok']
  rw [h2]
  simp only [Res.bind_ok']
  have key : Both [] (ep1.rxUses r ++ []) none none ep2 ∧ ep2.cfg = ep1.cfg := handleMsg_both hb1 hk h2
  refine releaseUses_total ?_
  intro u
  have huse : ep2.rxUses r = ep1.rxUses r := by unfold Ep.rxUses; rw [key.2]
  rw [huse]
  have := key.1.use.le u
  simp only [List.append_nil] at this
  omega

namespace Props

/-- C95: closing the endpoint in a callback that is called for the response to a pending request never returns: the
library accesses the request that was freed. -/
theorem C95_response {ep : Ep} (h : Reached ep) {m : PMsg} (hm : m.isResponse = true) {e : QEntry}
    (he : ep.reqs.find? (fun e => e.m.h.seq = m.h.seq) = some e) {r : React} (hr : r.ClosesFor ep.cfg e.m) :
    ∀ ep', ep.handleRx m r ≠ .ok ep' := by
  intro ep' hx
  obtain ⟨ep1, ep2, e1, -, -, e4, -, h2⟩ := handleRx_ok hx
  have hq : queueFind (if m.isResponse = true then ep1.reqs else ep1.resps) m = some e := by
    rw [if_pos hm, e1, queueFind_eq]
    · exact he
    · intro e he
      rw [((C53_queues h).1 e he).1, hm]; rfl
  unfold Ep.handleMsg at h2
  rw [hq] at h2
  dsimp only at h2
  rw [if_pos hm, handleResponse_eq] at h2
  obtain ⟨ep3, h3, -⟩ := Res.bind_eq_ok h2
  obtain ⟨ep4, h4, -⟩ := Res.bind_eq_ok h3
  have hh : Held e.id { ep1 with busy := e.id :: ep1.busy } :=
    ⟨.head _, e, List.mem_append_left _ (by rw [e1]; exact List.mem_of_find?_eq_some he), rfl⟩
  obtain ⟨ep5, h5, h6⟩ := Res.bind_eq_ok h4
  obtain ⟨hh5, hc⟩ := setCtx_holds hh h5
  rcases hr with ⟨hs, hr⟩ | ⟨⟨f, hf⟩, hr⟩ | ⟨hf, hr⟩
  · exact hc (by rw [show ({ ep1 with busy := e.id :: ep1.busy } : Ep).cfg = ep.cfg from e4]; exact hs) hr
  · rw [if_pos (by unfold PMsg.hasCb; rw [hf]; rfl)] at h6
    obtain ⟨⟨ep7, rc⟩, h7, h6⟩ := Res.bind_eq_ok h6
    unfold Ep.respCall at h7
    rw [if_neg (by rw [hf]; nofun)] at h7
    obtain ⟨ep8, h8, h7⟩ := Res.bind_eq_ok h7
    exact (run_holds _ _ _ (hh5.note _) h8).2 hr
  · by_cases hcb : e.m.hasCb = true
    · rw [if_pos hcb] at h6
      obtain ⟨⟨ep7, rc⟩, h7, h6⟩ := Res.bind_eq_ok h6
      unfold PMsg.hasCb at hcb
      rcases hf with hf | ⟨⟨f, hf⟩, h1⟩
      · rw [hf] at hcb; cases hcb
      unfold Ep.respCall at h7
      rw [if_neg (by rw [hf]; nofun)] at h7
      obtain ⟨ep8, h8, h7⟩ := Res.bind_eq_ok h7
      cases h7
      dsimp only at h6
      rw [if_neg (by rw [h1]; simp)] at h6
      exact (run_holds _ _ _ ((run_holds _ _ _ (hh5.note _) h8).1.note _) h6).2 hr
    · rw [if_neg hcb] at h6
      exact (run_holds _ _ _ (hh5.note _) h6).2 hr

/-- C95: likewise in assoc_cb(), which is called when the response to the Association Setup Request of a CP peer is
positive. -/
theorem C95_assoc_cb {ep : Ep} (h : Reached ep) {m : PMsg} (hm : m.isResponse = true) (ha : m.accepted = true) {e : QEntry}
    (he : ep.reqs.find? (fun e => e.m.h.seq = m.h.seq) = some e) (hcb : e.m.ctx.respCb = some .assoc)
    {fi p} (hf : e.m.ctx.peerFi = some fi) (hp : ep.peer? fi = some p) (hs : p.state = .waitAssoc) (hc : p.hasCb = true)
    {r : React} (hset : ep.cfg.hasSetCtx = false) (hr : r.onResp.Closes) : ∀ ep', ep.handleRx m r ≠ .ok ep' := by
  intro ep' hx
  obtain ⟨ep1, ep2, e1, -, -, e4, e5, h2⟩ := handleRx_ok hx
  have hq : queueFind (if m.isResponse = true then ep1.reqs else ep1.resps) m = some e := by
    rw [if_pos hm, e1, queueFind_eq]
    · exact he
    · intro e he
      rw [((C53_queues h).1 e he).1, hm]; rfl
  unfold Ep.handleMsg at h2
  rw [hq] at h2
  dsimp only at h2
  rw [if_pos hm, handleResponse_eq] at h2
  obtain ⟨ep3, h3, -⟩ := Res.bind_eq_ok h2
  obtain ⟨ep4, h4, -⟩ := Res.bind_eq_ok h3
  have hmem := List.mem_of_find?_eq_some he
  have hh : Held e.id { ep1 with busy := e.id :: ep1.busy } := ⟨.head _, e, List.mem_append_left _ (by rw [e1]; exact hmem), rfl⟩
  obtain ⟨ep5, h5, h6⟩ := Res.bind_eq_ok h4
  have e6 : ep5 = { ep1 with busy := e.id :: ep1.busy } := by
    unfold Ep.setCtx at h5
    rw [if_neg (by rw [show ({ ep1 with busy := e.id :: ep1.busy } : Ep).cfg = ep.cfg from e4, hset]; simp)] at h5
    cases h5; rfl
  subst e6
  rw [if_pos (by unfold PMsg.hasCb; rw [hcb]; rfl)] at h6
  obtain ⟨⟨ep7, rc⟩, h7, h6⟩ := Res.bind_eq_ok h6
  unfold Ep.respCall at h7
  rw [if_pos hcb] at h7
  have hl : ep1.reqs.find? (fun x => x.id = e.id) = some e := by
    rw [e1]; exact look_of_mem h.inv.nodupReqs hmem
  simp only [Ep.note] at h7
  rw [hl] at h7
  obtain ⟨ep8, h8, h7⟩ := Res.bind_eq_ok h7
  unfold Ep.assocResp at h8
  rw [hf] at h8
  simp only [Ep.peer?, e5] at h8
  rw [show ep.peers.find? (fun p => p.fi = fi) = some p from hp] at h8
  dsimp only at h8
  rw [if_neg (by simp [ha]), if_neg (by simp [hs]), if_pos hc] at h8
  refine (run_holds (id := e.id) _ _ _ ?_ h8).2 hr
  refine Held.note (Held.peerChg ?_ _ _) _
  exact ⟨.head _, hh.2⟩

/-- C95: closing the endpoint in set_msg_ctx_cb() for a request that was answered before never returns: the library
accesses the response that was freed. -/
theorem C95_duplicate {ep : Ep} (h : Reached ep) {m : PMsg} (hm : m.isResponse = false) {e : QEntry}
    (he : ep.resps.find? (fun e => e.m.h.seq = m.h.seq) = some e) {r : React} (hset : ep.cfg.hasSetCtx = true)
    (hr : r.onCtx.Closes) : ∀ ep', ep.handleRx m r ≠ .ok ep' := by
  intro ep' hx
  obtain ⟨ep1, ep2, -, e2, -, e4, -, h2⟩ := handleRx_ok hx
  have hm' : ¬ m.isResponse = true := by simp [hm]
  have hq : queueFind (if m.isResponse = true then ep1.reqs else ep1.resps) m = some e := by
    rw [if_neg hm', e2, queueFind_eq]
    · exact he
    · intro e he
      rw [((C53_queues h).2 e he).1, hm]; rfl
  unfold Ep.handleMsg at h2
  rw [hq] at h2
  dsimp only at h2
  rw [if_neg hm'] at h2
  obtain ⟨ep3, h3, -⟩ := Res.bind_eq_ok h2
  obtain ⟨ep4, h4, -⟩ := Res.bind_eq_ok h3
  have hh : Held e.id { ep1 with busy := e.id :: ep1.busy } :=
    ⟨.head _, e, List.mem_append_right _ (by rw [e2]; exact List.mem_of_find?_eq_some he), rfl⟩
  exact (setCtx_holds hh h4).2 (by rw [show ({ ep1 with busy := e.id :: ep1.busy } : Ep).cfg = ep.cfg from e4]; exact hset) hr

/-- C95: closing the endpoint in the resp_cb() of a request that is given up never returns. -/
theorem C95_timeout {ep : Ep} (h : Reached ep) {e : QEntry} (he : e ∈ ep.reqs) (hx : e.expired ep.now = true) {io : Bool}
    (hl : e.n1 = 0 ∨ io = false) {f} (hcb : e.m.ctx.respCb = some (.app f)) {a : App} (ha : a.Closes) :
    ∀ ep', ep.reqTimer e.id io a.run ≠ .ok ep' := by
  intro ep' hr
  unfold Ep.reqTimer at hr
  rw [show ep.reqs.find? (fun x => x.id = e.id) = some e from look_of_mem h.inv.nodupReqs he] at hr
  dsimp only at hr
  rw [if_neg (by simp [hx]), if_neg (by simp [((C53_queues h).1 e he).1])] at hr
  obtain ⟨⟨ep1, keep⟩, h1, hr⟩ := Res.bind_eq_ok hr
  have hk : keep = false ∧ ∃ x ∈ ep1.reqs, x.id = e.id := by
    have hs : ∀ q : QEntry, q.id = e.id → q ∈ setEntry ep.reqs q := fun q hq =>
      List.mem_map.2 ⟨e, he, by rw [if_pos hq.symm]⟩
    unfold Ep.retrans at h1
    split at h1
    · cases h1
      exact ⟨rfl, _, hs { e with timer := none } rfl, rfl⟩
    · rename_i hn
      rcases hl with hl | rfl
      · exact absurd hl hn
      obtain ⟨⟨ep2, m2, rc⟩, h2, h1⟩ := Res.bind_eq_ok h1
      rcases sendMsg_ok h2 with ⟨o, _, _, hio, hr2⟩ | ⟨l, x, enc, hl, henc, hr2⟩
      · cases hio
      · cases hr2
        cases h1
        refine ⟨rfl, { e with m := { e.m with encoded := enc }, n1 := e.n1 - 1, timer := none }, ?_, rfl⟩
        exact List.mem_map.2 ⟨_, hs { e with timer := none } rfl, by rw [if_pos rfl]⟩
  obtain ⟨rfl, x, hx1, hx2⟩ := hk
  dsimp only at hr
  rw [if_neg (by simp), if_pos (show e.m.hasCb = true by unfold PMsg.hasCb; rw [hcb]; rfl)] at hr
  obtain ⟨ep3, h3, -⟩ := Res.bind_eq_ok hr
  obtain ⟨ep4, h4, -⟩ := Res.bind_eq_ok h3
  dsimp only at h4
  rw [if_neg (by rw [hcb]; nofun)] at h4
  refine (run_holds (id := e.id) _ _ _ ?_ h4).2 ha
  exact ⟨.head _, x, List.mem_append_left _ hx1, hx2⟩

/-- C95: where no message of the endpoint is being handled, the application may close it in every callback: in
set_msg_ctx_cb() and rx_msg_cb() for a request that was not answered before, and for a response to no pending request. -/
theorem C95_otherwise {own : Nat → Prop} {cfg : EpCfg} {ops : List Op} (hn : InRange (.nodeId cfg.nodeId))
    (hops : ∀ op ∈ ops, op.Tame own cfg.nodeId) (n1 t1 keepResp unixTime now : Nat) {ep : Ep}
    (h : exec ops (Ep.create cfg n1 t1 keepResp unixTime now) = .ok ep) {m : PMsg}
    (hm : ∀ e ∈ if m.isResponse then ep.reqs else ep.resps, e.m.h.seq ≠ m.h.seq) {r : React} (hr : r.Loose own cfg.nodeId) :
    ∃ ep', ep.handleRx m r = .ok ep' := by
  obtain ⟨hre, hc⟩ := exec_state hn hops n1 t1 keepResp unixTime now h
  exact handleRx_unmatched hn hre.both hc hre.busy hm hr

/-! ### Examples -/

/-- The Heartbeat Response with sequence number 1, as it is received. -/
def exRespMsg : PMsg := { remote := exRemote, isResponse := true, h := { version := 1, type := 2, seq := 1 }, ies := [[.leaf (.u32 9)]] }

/-- A request is pending; in each callback that is called for its response, the endpoint is closed. -/
example : ∃ ep e, exec exSend exEp = .ok ep ∧ ep.reqs.find? (fun e => e.m.h.seq = exRespMsg.h.seq) = some e ∧
    React.ClosesFor ep.cfg e.m { onCtx := .setSeq 3 (.close .done) } ∧
    React.ClosesFor ep.cfg e.m { onResp := .tx exReq true .done (.bind true .done) } ∧
    React.ClosesFor ep.cfg e.m { rc := 1, onRx := .close .done } ∧ ¬ React.ClosesFor ep.cfg e.m { onRx := .close .done } := by
  refine ⟨_, _, rfl, rfl, .inl ⟨rfl, trivial⟩, .inr (.inl ⟨⟨1, rfl⟩, trivial⟩), .inr (.inr ⟨.inr ⟨⟨1, rfl⟩, rfl⟩, trivial⟩), ?_⟩
  rintro (⟨-, h⟩ | ⟨-, h⟩ | ⟨h | ⟨-, h⟩, -⟩)
  · exact h
  · exact h
  · cases h
  · exact absurd h (by decide)

/-- The same, as datagrams arrive: the first three crash, the last does not. -/
example : exec (exSend ++ [.rx exRemote exRespOctets [{ onCtx := .setSeq 3 (.close .done) }]]) exEp = .ub ∧
    exec (exSend ++ [.rx exRemote exRespOctets [{ onResp := .tx exReq true .done (.bind true .done) }]]) exEp = .ub ∧
    exec (exSend ++ [.rx exRemote exRespOctets [{ rc := 1, onRx := .close .done }]]) exEp = .ub ∧
    obs 0 (exec (exSend ++ [.rx exRemote exRespOctets [{ onRx := .close .done }]]) exEp) =
      some ([(exRemote, exOctets)], [some 1], 1, 0, [], []) := by
  set_option maxRecDepth 100000 in exact ⟨rfl, rfl, rfl, rfl⟩

/-- assoc_cb() closes the endpoint. -/
example : exec (exAssociate ++ [.rx exUpf exAccept [{ onResp := .close .done }]]) { exEp with cfg := { exEp.cfg with hasSetCtx := false } } = .ub := by
  set_option maxRecDepth 100000 in rfl

/-- The last retransmission fails, and resp_cb() closes the endpoint. -/
example : exec (exSend ++ [.advance 100, .reqTimer 0 false (.close .done)]) exEp = .ub := by
  set_option maxRecDepth 100000 in rfl

/-- A response is kept; the request comes again. -/
example : exec [.app (.bind true (.tx exAnswer true .done .done)), .rx exOther exDelOctets [{ onCtx := .close .done }]] exEp = .ub := by
  set_option maxRecDepth 100000 in rfl

/-- No message is in use: a response that nobody waits for, and a new request, arrive; both callbacks close the endpoint. -/
example : obs 0 (exec (exSend ++ [.app (.setSeq 7 .done), .rx exOther exDelOctets [{ onCtx := .close .done, onRx := .bind true .done }],
      .rx exRemote exRespOctets [{ onCtx := .close .done, onRx := .close .done }]]) exEp) =
    some ([(exRemote, exOctets)], [], 1, 1, [], []) := by
  set_option maxRecDepth 100000 in rfl

end Props
end Verif
