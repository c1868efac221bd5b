/-
Proofs that the endpoint does not crash: what is preserved, and then that every function returns.
-/
import Verif.SpecSafe
import Verif.EndpointPeer2
import Verif.PropsPeer

namespace Verif
open Spec Props

/-- What is always true of the endpoint of an application that observes the rules. -/
structure Calm (own : Nat → Prop) (nid : NodeId) (ep : Ep) : Prop where
  rts : ep.rts < 2 ^ 32
  nid : ep.cfg.nodeId = nid
  sock : ep.sock = true → ep.cfg.hasRx = true
  inval : ∀ fi, .invalidated fi ∈ ep.log → ¬ own fi
  peers : ∀ p ∈ ep.peers, own p.fi
  reqs : ∀ e ∈ ep.reqs, e.m.encoded.isSome ∧ e.m.isResponse = false
  resps : ∀ e ∈ ep.resps, e.m.encoded.isSome ∧ e.m.isResponse = true

/-- No message leaves the queues. -/
def Kept (ep ep' : Ep) : Prop :=
  (∀ e ∈ ep.reqs, ∃ e' ∈ ep'.reqs, e'.id = e.id) ∧ (∀ e ∈ ep.resps, ∃ e' ∈ ep'.resps, e'.id = e.id)

theorem Kept.refl (ep) : Kept ep ep := ⟨fun e he => ⟨e, he, rfl⟩, fun e he => ⟨e, he, rfl⟩⟩
theorem Kept.same {ep ep' : Ep} (h1 : ep'.reqs = ep.reqs) (h2 : ep'.resps = ep.resps) : Kept ep ep' := by
  refine ⟨fun e he => ⟨e, h1 ▸ he, rfl⟩, fun e he => ⟨e, h2 ▸ he, rfl⟩⟩
theorem Kept.trans {a b c} (h : Kept a b) (h' : Kept b c) : Kept a c := by
  refine ⟨fun e he => ?_, fun e he => ?_⟩
  · obtain ⟨e1, h1, i1⟩ := h.1 e he
    obtain ⟨e2, h2, i2⟩ := h'.1 e1 h1
    exact ⟨e2, h2, i2.trans i1⟩
  · obtain ⟨e1, h1, i1⟩ := h.2 e he
    obtain ⟨e2, h2, i2⟩ := h'.2 e1 h1
    exact ⟨e2, h2, i2.trans i1⟩

/-- Not an invalidation. -/
def harmless : Event → Bool
  | .invalidated _ => false
  | _ => true

section
variable {own : Nat → Prop} {nid : NodeId}

theorem Calm.same {ep ep' : Ep} (h : Calm own nid ep) (l : List Event) (hl : ep'.log = l ++ ep.log)
    (hh : ∀ e ∈ l, harmless e = true) (h1 : ep'.rts = ep.rts) (h2 : ep'.cfg = ep.cfg) (h3 : ep'.sock = ep.sock)
    (h4 : ep'.peers = ep.peers) (h5 : ep'.reqs = ep.reqs) (h6 : ep'.resps = ep.resps) : Calm own nid ep' := by
  refine ⟨h1 ▸ h.rts, h2 ▸ h.nid, by rw [h2, h3]; exact h.sock, ?_, h4 ▸ h.peers, h5 ▸ h.reqs, h6 ▸ h.resps⟩
  intro fi hf
  rw [hl] at hf
  rcases List.mem_append.mp hf with hf | hf
  · cases hh _ hf
  · exact h.inval fi hf

theorem Calm.note {ep : Ep} (h : Calm own nid ep) {e} (he : harmless e = true) : Calm own nid (ep.note e) :=
  h.same [e] rfl (by simpa using he) rfl rfl rfl rfl rfl rfl

theorem Calm.busy {ep : Ep} (h : Calm own nid ep) (b) : Calm own nid { ep with busy := b } :=
  h.same [] rfl (by simp) rfl rfl rfl rfl rfl rfl

theorem Calm.queues {ep : Ep} (h : Calm own nid ep) {rq rs : List QEntry}
    (h1 : ∀ e ∈ rq, e.m.encoded.isSome ∧ e.m.isResponse = false) (h2 : ∀ e ∈ rs, e.m.encoded.isSome ∧ e.m.isResponse = true) :
    Calm own nid { ep with reqs := rq, resps := rs } := ⟨h.rts, h.nid, h.sock, h.inval, h.peers, h1, h2⟩

theorem Calm.use {ep : Ep} (h : Calm own nid ep) (u) : Calm own nid { ep with use := u } :=
  h.same [] rfl (by simp) rfl rfl rfl rfl rfl rfl

theorem Calm.release {ep ep' : Ep} {us} (h : Calm own nid ep) (hr : ep.releaseUses us = .ok ep') :
    Calm own nid ep' ∧ Kept ep ep' := by
  obtain ⟨rfl, -⟩ := releaseUses_ok hr
  exact ⟨h.use _, .same rfl rfl⟩

/-- What functions preserve. -/
def Calms (own : Nat → Prop) (nid : NodeId) (inside : Bool) (f : Ep → Res Ep) : Prop :=
  ∀ ep ep', Calm own nid ep → f ep = .ok ep' → Calm own nid ep' ∧ (inside = true → Kept ep ep')

theorem ok_calms' (b) : Calms own nid b .ok := by
  intro ep ep' h hx; cases hx; exact ⟨h, fun _ => .refl _⟩

theorem setPeer_fi {ps : List Peer} {p : Peer} : ∀ q ∈ setPeer ps p, ∃ q' ∈ ps, q.fi = q'.fi := by
  intro q hq
  obtain ⟨q', hq', rfl⟩ := List.mem_map.mp hq
  refine ⟨q', hq', ?_⟩
  split
  · rename_i h; exact h.symm
  · rfl

theorem Calm.setPeer {ep : Ep} (h : Calm own nid ep) (p : Peer) : Calm own nid { ep with peers := setPeer ep.peers p } := by
  refine ⟨h.rts, h.nid, h.sock, h.inval, ?_, h.reqs, h.resps⟩
  intro q hq
  obtain ⟨q', hq', hf⟩ := setPeer_fi q hq
  rw [hf]
  exact h.peers q' hq'

theorem Calm.peerChg {ep : Ep} (h : Calm own nid ep) (fi s) : Calm own nid (ep.peerChg fi s) ∧ Kept ep (ep.peerChg fi s) := by
  unfold Ep.peerChg
  split
  · exact ⟨h, .refl _⟩
  · split
    · exact ⟨(h.setPeer _).note rfl, .same rfl rfl⟩
    · exact ⟨h, .refl _⟩

theorem assocResp_calms {ctx resp cb b} (hcb : Calms own nid b cb) : Calms own nid b fun ep => ep.assocResp ctx resp cb := by
  intro ep ep' h hx
  dsimp only at hx
  unfold Ep.assocResp at hx
  split at hx
  · cases hx
  rename_i fi hf
  split at hx
  · cases hx
  have hr := h.peerChg fi .waitRetry
  have ha := h.peerChg fi .associated
  split at hx
  · cases hx; exact ⟨hr.1, fun _ => hr.2⟩
  split at hx
  · cases hx; exact ⟨hr.1, fun _ => hr.2⟩
  split at hx
  · cases hx; exact ⟨h, fun _ => .refl _⟩
  dsimp only at hx
  split at hx
  · obtain ⟨h1, h2⟩ := hcb _ _ (ha.1.note (e := .peer fi (.assocCb true)) rfl) hx
    exact ⟨h1, fun hb => (ha.2.trans (.same rfl rfl)).trans (h2 hb)⟩
  · cases hx; exact ⟨ha.1, fun _ => ha.2⟩

theorem Calm.sendMsg {ep : Ep} {why id m io r} (h : Calm own nid ep) (hs : ep.sendMsg why id m io = .ok r) :
    Calm own nid r.1 ∧ Kept ep r.1 ∧ r.2.1.isResponse = m.isResponse ∧ (m.encoded.isSome → r.2.1.encoded.isSome) ∧
      (r.2.2 = none → r.2.1.encoded.isSome) := by
  rcases sendMsg_ok hs with ⟨o, _, _, _, rfl⟩ | ⟨l, e, enc, hl, henc, rfl⟩
  · exact ⟨h.note rfl, .same rfl rfl, rfl, fun _ => rfl, fun _ => rfl⟩
  · refine ⟨h.same l rfl ?_ rfl rfl rfl rfl rfl rfl, .same rfl rfl, rfl, ?_, by simp⟩
    · rcases hl with ⟨rfl, _⟩ | ⟨o, _, rfl⟩
      · simp
      · simp [harmless]
    · intro hm; rw [henc hm]; exact hm

theorem failCb_calms {id m cb b} (hcb : Calms own nid b cb) : Calms own nid b fun ep => ep.failCb id m cb := by
  intro ep ep' h hx
  rcases failCb_ok hx with ⟨ep1, h1, rfl⟩ | ⟨_, rfl⟩
  · obtain ⟨h2, h3⟩ := hcb _ _ ((h.note (e := .respCb id none ep.now) rfl).busy _) h1
    exact ⟨h2.busy _, fun hb => (Kept.trans (Kept.same rfl rfl) (h3 hb)).trans (Kept.same rfl rfl)⟩
  · exact ⟨h, fun _ => .refl _⟩

theorem Calm.begun {ep : Ep} (h : Calm own nid ep) (m : PMsg) : Calm own nid (ep.begun m) :=
  h.same [] (by simp) (by simp) (by simp) (by simp) (by simp) (begun_peers ep m) (by simp) (by simp)

theorem tx_calms {m io cb b} (hcb : Calms own nid b cb) : Calms own nid b fun ep => ep.tx m io cb := by
  intro ep ep' h hx
  dsimp only at hx
  rw [tx_eq] at hx
  obtain ⟨⟨ep1, m1, rc⟩, h1, hx⟩ := Res.bind_eq_ok hx
  have h0 : Calm own nid ((ep.begun m).note (.passed ep.nextId ep.n1 ep.t1 (ep.outgoing m))) := (h.begun m).note rfl
  obtain ⟨c1, k1, r1, -, e1⟩ := h0.sendMsg h1
  have k0 : Kept ep ep1 := Kept.trans (Kept.same (by simp [Ep.note]) (by simp [Ep.note])) k1
  dsimp only at hx c1 k1 r1 e1
  cases rc with
  | some e =>
    obtain ⟨ep2, h2, hx⟩ := Res.bind_eq_ok hx
    obtain ⟨ep3, h3, hx⟩ := Res.bind_eq_ok hx
    cases hx
    obtain ⟨c2, k2⟩ := failCb_calms hcb _ _ c1 h2
    obtain ⟨c3, k3⟩ := c2.release h3
    exact ⟨(c3.note rfl).note rfl, fun hb => ((k0.trans (k2 hb)).trans k3).trans (.same rfl rfl)⟩
  | none =>
    obtain ⟨ep2, h2, hx⟩ := Res.bind_eq_ok hx
    cases hx
    unfold Ep.queueAdd at h2
    split at h2
    · obtain ⟨c2, k2⟩ := failCb_calms hcb _ _ c1 h2
      exact ⟨c2.note rfl, fun hb => (k0.trans (k2 hb)).trans (.same rfl rfl)⟩
    · split at h2
      · rename_i hr
        cases h2
        refine ⟨Calm.note (c1.queues c1.reqs ?_) rfl, fun _ => k0.trans ?_⟩
        · intro e he
          rcases List.mem_append.mp he with he | he
          · exact c1.resps e he
          · rw [List.mem_singleton.mp he]
            exact ⟨e1 rfl, hr⟩
        · exact ⟨fun e he => ⟨e, he, rfl⟩, fun e he => ⟨e, List.mem_append_left _ he, rfl⟩⟩
      · rename_i hr
        cases h2
        refine ⟨Calm.note (c1.queues ?_ c1.resps) rfl, fun _ => k0.trans ?_⟩
        · intro e he
          rcases List.mem_cons.mp he with rfl | he
          · exact ⟨e1 rfl, by simpa using hr⟩
          · exact c1.reqs e he
        · exact ⟨fun e he => ⟨e, .tail _ he, rfl⟩, fun e he => ⟨e, he, rfl⟩⟩

theorem txDirect_calms {m io b why} : Calms own nid b fun ep => ep.txDirect m io why := by
  intro ep ep' h hx
  obtain ⟨⟨ep1, m1, rc⟩, h1, hx⟩ := Res.bind_eq_ok hx
  cases hx
  have h0 : Calm own nid { ep with nextId := ep.nextId + 1 } := h.same [] rfl (by simp) rfl rfl rfl rfl rfl rfl
  obtain ⟨c1, k1, -⟩ := h0.sendMsg h1
  exact ⟨c1, fun _ => Kept.trans (Kept.same rfl rfl) k1⟩

theorem assocStart_calms {fi p io b} : Calms own nid b fun ep => ep.assocStart fi p io := by
  intro ep ep' h hx
  dsimp only at hx
  unfold Ep.assocStart at hx
  split at hx
  · cases hx; exact ⟨h, fun _ => .refl _⟩
  dsimp only at hx
  obtain ⟨ep1, h1, hx⟩ := Res.bind_eq_ok hx
  cases hx
  obtain ⟨c0, k0⟩ := h.peerChg fi .waitAssoc
  have hcb : Calms own nid true fun e : Ep => e.assocResp (assocReq p (ep.peerChg fi .waitAssoc).rts).ctx none .ok :=
    assocResp_calms (ok_calms' true)
  obtain ⟨c1, k1⟩ := tx_calms (own := own) (nid := nid) (b := true) hcb _ _ (c0.use _) h1
  have k2 : Kept ep ep1 := (k0.trans (.same rfl rfl)).trans (k1 rfl)
  split
  · obtain ⟨c2, k3⟩ := c1.peerChg fi .waitRetry
    exact ⟨c2, fun _ => k2.trans k3⟩
  · exact ⟨c1, fun _ => k2⟩

theorem associate_calms {fi io b} : Calms own nid b fun ep => ep.associate fi io := by
  intro ep ep' h hx
  dsimp only at hx
  unfold Ep.associate at hx
  split at hx
  · cases hx; exact ⟨h, fun _ => .refl _⟩
  split at hx
  · exact assocStart_calms _ _ h hx
  · cases hx; exact ⟨h, fun _ => .refl _⟩

theorem Calm.close {ep ep' : Ep} (h : Calm own nid ep) (hx : ep.close = .ok ep') : Calm own nid ep' := by
  unfold Ep.close at hx
  split at hx
  · cases hx
  obtain ⟨ep1, h1, hx⟩ := Res.bind_eq_ok hx
  cases hx
  obtain ⟨c1, -⟩ := h.release h1
  refine ⟨c1.rts, c1.nid, (fun h => by cases h), ?_, c1.peers, (fun e he => by cases he), (fun e he => by cases he)⟩
  intro fi hf
  rcases List.mem_append.mp hf with hf | hf
  · simp only [List.mem_reverse, List.mem_flatten, List.mem_map] at hf
    obtain ⟨l, ⟨q, _, rfl⟩, he⟩ := hf
    simp at he
  · exact c1.inval fi hf

theorem Calm.invalidate {ep : Ep} (h : Calm own nid ep) {fi} (hf : ¬ own fi) : Calm own nid (ep.invalidate fi) ∧ Kept ep (ep.invalidate fi) := by
  refine ⟨⟨h.rts, h.nid, h.sock, ?_, h.peers, ?_, ?_⟩, ?_, ?_⟩
  · intro f hm
    rcases List.mem_cons.mp hm with hm | hm
    · cases hm; exact hf
    · exact h.inval f hm
  · intro e he
    obtain ⟨e0, he0, rfl⟩ := List.mem_map.mp he
    have := h.reqs e0 he0
    obtain ⟨-, h2, -, -, h5, -⟩ := msgInvalidateCtx_same e0.m fi
    dsimp only
    rw [h5, h2]
    exact this
  · intro e he
    obtain ⟨e0, he0, rfl⟩ := List.mem_map.mp he
    have := h.resps e0 he0
    obtain ⟨-, h2, -, -, h5, -⟩ := msgInvalidateCtx_same e0.m fi
    dsimp only
    rw [h5, h2]
    exact this
  · exact fun e he => ⟨_, List.mem_map.mpr ⟨e, he, rfl⟩, rfl⟩
  · exact fun e he => ⟨_, List.mem_map.mpr ⟨e, he, rfl⟩, rfl⟩


theorem Calms.andThen {b} {f g : Ep → Res Ep} (hf : Calms own nid b f) (hg : Calms own nid b g) :
    Calms own nid b fun ep => (f ep).bind g := by
  intro ep ep' h hx
  obtain ⟨ep1, h1, hx⟩ := Res.bind_eq_ok hx
  obtain ⟨c1, k1⟩ := hf _ _ h h1
  obtain ⟨c2, k2⟩ := hg _ _ c1 hx
  exact ⟨c2, fun hb => (k1 hb).trans (k2 hb)⟩

/-- A step that does not touch what matters. -/
theorem Calms.after {b} {f : Ep → Res Ep} (hf : Calms own nid b f) {g : Ep → Ep}
    (hg : ∀ ep, Calm own nid ep → Calm own nid (g ep) ∧ Kept ep (g ep)) : Calms own nid b fun ep => f (g ep) := by
  intro ep ep' h hx
  obtain ⟨c1, k1⟩ := hg ep h
  obtain ⟨c2, k2⟩ := hf _ _ c1 hx
  exact ⟨c2, fun hb => k1.trans (k2 hb)⟩

theorem Calm.newPeer {ep : Ep} (h : Calm own nid ep) {fi r} (ho : own fi) : Calm own nid (ep.newPeer fi r) ∧ Kept ep (ep.newPeer fi r) := by
  unfold Ep.newPeer
  split
  · exact ⟨h, .refl _⟩
  · refine ⟨⟨h.rts, h.nid, h.sock, h.inval, ?_, h.reqs, h.resps⟩, .same rfl rfl⟩
    intro p hp
    rcases List.mem_cons.mp hp with rfl | hp
    · exact ho
    · exact h.peers p hp

theorem Calm.setAssocCb {ep : Ep} (h : Calm own nid ep) (fi b) : Calm own nid (ep.setAssocCb fi b) ∧ Kept ep (ep.setAssocCb fi b) := by
  unfold Ep.setAssocCb
  split
  · exact ⟨h, .refl _⟩
  · exact ⟨(h.setPeer _).note rfl, .same rfl rfl⟩

/-- What the application does. -/
theorem run_calms {b} : ∀ a : App, a.Tame own nid b → Calms own nid b a.run := by
  intro a
  induction a with
  | done => exact fun _ => ok_calms' b
  | tx m io f r hf hr =>
    rintro ⟨h1, h2, h3, h4⟩
    intro ep ep' h hx
    unfold App.run at hx
    rw [if_neg h1] at hx
    exact (((tx_calms (hf h3)).after (g := fun ep => ep.takeUses m.ctx.uses) fun ep h => ⟨h.use _, .same rfl rfl⟩).andThen (hr h4)) _ _ h hx
  | txData m io r hr =>
    rintro ⟨_, h2⟩
    exact txDirect_calms.andThen (hr h2)
  | heartbeat remote io r hr =>
    intro h1 ep ep' h hx
    obtain ⟨ep1, h2, hx⟩ := Res.bind_eq_ok hx
    have h0 : Calm own nid { ep with seq := nextSeqNr ep.seq, draws := ep.draws + 1 } := h.same [] rfl (by simp) rfl rfl rfl rfl rfl rfl
    obtain ⟨c1, k1⟩ := txDirect_calms (b := true) _ _ h0 h2
    obtain ⟨c2, k2⟩ := hr h1 _ _ c1 hx
    exact ⟨c2, fun hb => Kept.trans (Kept.trans (Kept.same rfl rfl) (k1 rfl)) (k2 hb)⟩
  | invalidate fi r hr =>
    rintro ⟨h1, h2⟩
    exact (hr h2).after fun ep h => h.invalidate h1
  | setSeq s r hr =>
    intro h1
    exact (hr h1).after (g := fun ep => { ep with seq := s, resets := ep.resets + 1 })
      fun ep h => ⟨h.same [] rfl (by simp) rfl rfl rfl rfl rfl rfl, .same rfl rfl⟩
  | setTimers n1 t1 kr r hr =>
    intro h1
    exact (hr h1).after (g := fun ep => { ep with n1 := n1, t1 := t1, keepResp := kr }.note (.config n1 t1 kr))
      fun ep h => ⟨h.same [.config n1 t1 kr] rfl (by simp [harmless]) rfl rfl rfl rfl rfl rfl, .same rfl rfl⟩
  | close r hr =>
    rintro ⟨rfl, h2⟩ ep ep' h hx
    obtain ⟨ep1, h1, hx⟩ := Res.bind_eq_ok hx
    exact ⟨(hr h2 _ _ (h.close h1) hx).1, fun hb => by cases hb⟩
  | bind ok r hr =>
    rintro ⟨rfl, h2⟩ ep ep' h hx
    obtain ⟨ep1, h1, hx⟩ := Res.bind_eq_ok hx
    obtain ⟨ep2, h3, h1⟩ := Res.bind_eq_ok h1
    cases h1
    have c := h.close h3
    have c3 : Calm own nid { ep2 with sock := ep2.cfg.hasRx && ok } := by
      refine ⟨c.rts, c.nid, ?_, c.inval, c.peers, c.reqs, c.resps⟩
      intro hs
      simp at hs
      exact hs.1
    exact ⟨(hr h2 _ _ c3 hx).1, fun hb => by cases hb⟩
  | setT26 t r hr =>
    intro h1
    exact (hr h1).after (g := fun ep => { ep with t26 := t }.note (.configT26 t))
      fun ep h => ⟨h.same [.configT26 t] rfl (by simp [harmless]) rfl rfl rfl rfl rfl rfl, .same rfl rfl⟩
  | newPeer fi remote r hr =>
    rintro ⟨h1, h2⟩
    exact (hr h2).after fun ep h => h.newPeer h1
  | setAssocCb fi b r hr =>
    intro h1
    exact (hr h1).after fun ep h => h.setAssocCb fi b
  | associate fi io r hr =>
    intro h1
    exact associate_calms.andThen (hr h1)

/-! ### Timers and reception -/

theorem Calm.queueDel {ep ep' : Ep} {id} (h : Calm own nid ep) (hx : ep.queueDel id = .ok ep') : Calm own nid ep' := by
  obtain ⟨ep1, h1, hx⟩ := Res.bind_eq_ok hx
  cases hx
  obtain ⟨c1, -⟩ := h.release h1
  exact (c1.queues (rq := ep1.reqs.filter fun e => e.id ≠ id) (rs := ep1.resps.filter fun e => e.id ≠ id)
    (fun e he => c1.reqs e (List.mem_filter.mp he).1) (fun e he => c1.resps e (List.mem_filter.mp he).1)).note (e := .freed id) rfl

theorem Calm.setReq {ep : Ep} (h : Calm own nid ep) {e : QEntry} (he : e.m.encoded.isSome ∧ e.m.isResponse = false) :
    Calm own nid { ep with reqs := setEntry ep.reqs e } ∧ Kept ep { ep with reqs := setEntry ep.reqs e } := by
  refine ⟨h.queues ?_ h.resps, ?_, fun e he => ⟨e, he, rfl⟩⟩
  · intro x hx
    obtain ⟨y, hy, rfl⟩ := List.mem_map.mp hx
    split
    · exact he
    · exact h.reqs y hy
  · intro x hx
    refine ⟨_, List.mem_map.mpr ⟨x, hx, rfl⟩, ?_⟩
    split
    · rename_i hi; exact hi.symm
    · rfl

theorem Calm.setResp {ep : Ep} (h : Calm own nid ep) {e : QEntry} (he : e.m.encoded.isSome ∧ e.m.isResponse = true) :
    Calm own nid { ep with resps := setEntry ep.resps e } := by
  refine h.queues h.reqs ?_
  intro x hx
  obtain ⟨y, hy, rfl⟩ := List.mem_map.mp hx
  split
  · exact he
  · exact h.resps y hy

theorem Calm.retrans {ep : Ep} {e : QEntry} {io r} (h : Calm own nid ep) (he : e.m.encoded.isSome ∧ e.m.isResponse = false)
    (hx : ep.retrans e io = .ok r) : Calm own nid r.1 ∧ Kept ep r.1 := by
  unfold Ep.retrans at hx
  split at hx
  · cases hx; exact ⟨h, .refl _⟩
  obtain ⟨⟨ep1, m1, rc⟩, h1, hx⟩ := Res.bind_eq_ok hx
  obtain ⟨c1, k1, r1, e1, -⟩ := h.sendMsg h1
  dsimp only at c1 k1 r1 e1
  have hm : m1.encoded.isSome ∧ m1.isResponse = false := ⟨e1 he.1, r1.trans he.2⟩
  cases rc with
  | none => cases hx; exact ⟨(c1.setReq hm).1, k1.trans (c1.setReq hm).2⟩
  | some x => cases hx; exact ⟨(c1.setReq hm).1, k1.trans (c1.setReq hm).2⟩

theorem using_calms {id b} {f : Ep → Res Ep} (hf : Calms own nid b f) : Calms own nid b fun ep => ep.using id f := by
  intro ep ep' h hx
  obtain ⟨ep1, h1, hx⟩ := Res.bind_eq_ok hx
  cases hx
  obtain ⟨c1, k1⟩ := hf _ _ (h.busy _) h1
  exact ⟨c1.busy _, fun hb => Kept.trans (Kept.same rfl rfl) (Kept.trans (k1 hb) (Kept.same rfl rfl))⟩

theorem Calm.reqTimer {ep ep' : Ep} {id io} {a : App} (h : Calm own nid ep) (ha : a.Tame own nid true)
    (hx : ep.reqTimer id io a.run = .ok ep') : Calm own nid ep' := by
  unfold Ep.reqTimer at hx
  split at hx
  · cases hx; exact h
  rename_i e hf
  obtain ⟨he, rfl⟩ := find_id hf
  split at hx
  · cases hx; exact h
  split at hx
  · cases hx
  dsimp only at hx
  obtain ⟨⟨ep1, keep⟩, h1, hx⟩ := Res.bind_eq_ok hx
  obtain ⟨c1, -⟩ := (h.setReq (e := { e with timer := none }) (h.reqs e he)).1.retrans (e := { e with timer := none }) (h.reqs e he) h1
  dsimp only at hx c1
  split at hx
  · cases hx; exact c1
  obtain ⟨ep2, h2, hx⟩ := Res.bind_eq_ok hx
  have c2 : Calm own nid ep2 := by
    split at h2
    · refine (using_calms (own := own) (nid := nid) (b := true) ?_ _ _ (c1.note rfl) h2).1
      intro x x' hc hx
      dsimp only at hx
      split at hx
      · exact assocResp_calms (ok_calms' true) _ _ hc hx
      · exact run_calms a ha _ _ hc hx
    · cases h2; exact c1
  split at hx
  · exact c2.queueDel hx
  · cases hx

theorem Calm.respTimer {ep ep' : Ep} {id} (h : Calm own nid ep) (hx : ep.respTimer id = .ok ep') : Calm own nid ep' := by
  unfold Ep.respTimer at hx
  split at hx
  · cases hx; exact h
  split at hx
  · cases hx; exact h
  split at hx
  · cases hx
  exact h.queueDel hx

theorem Calm.peerTimer {ep ep' : Ep} {fi io} (h : Calm own nid ep) (hx : ep.peerTimer fi io = .ok ep') : Calm own nid ep' := by
  unfold Ep.peerTimer at hx
  split at hx
  · cases hx; exact h
  split at hx
  · cases hx; exact h
  dsimp only at hx
  split at hx
  · exact (assocStart_calms (own := own) (nid := nid) (b := true) _ _ (h.setPeer _) hx).1
  · cases hx
    have c := h.setPeer { ‹Peer› with timer := none }
    exact ⟨c.rts, c.nid, c.sock, c.inval, fun p hp => c.peers p (List.mem_filter.mp hp).1, c.reqs, c.resps⟩

theorem setCtx_calms {k req b r} (hr : React.Tame own nid b r) : Calms own nid true fun ep => ep.setCtx k req r := by
  intro ep ep' h hx
  dsimp only at hx
  unfold Ep.setCtx at hx
  split at hx
  · obtain ⟨c, k⟩ := run_calms _ hr.1 _ _ ((h.note (e := .setCtx k req) rfl).use _) hx
    exact ⟨c, fun hb => Kept.trans (Kept.same rfl rfl) (k hb)⟩
  · cases hx; exact ⟨h, fun _ => .refl _⟩

theorem dispatch_calms {k req b r} (hr : React.Tame own nid b r) : Calms own nid b fun ep => ep.dispatch k req r :=
  (run_calms _ hr.2.2).after fun _ h => ⟨h.note rfl, .same rfl rfl⟩

theorem respCall_calms {m prev b r} (hr : React.Tame own nid b r) {ep : Ep} {x} (h : Calm own nid ep)
    (hx : ep.respCall m prev r = .ok x) : Calm own nid x.1 ∧ Kept ep x.1 := by
  unfold Ep.respCall at hx
  split at hx
  · split at hx
    · cases hx
    obtain ⟨ep1, h1, hx⟩ := Res.bind_eq_ok hx
    cases hx
    obtain ⟨c, k⟩ := assocResp_calms (run_calms _ hr.2.1) _ _ h h1
    exact ⟨c, k rfl⟩
  · obtain ⟨ep1, h1, hx⟩ := Res.bind_eq_ok hx
    cases hx
    obtain ⟨c, k⟩ := run_calms _ hr.2.1 _ _ h h1
    exact ⟨c, k rfl⟩

/-- What is done inside of `handleResponse`. -/
def Ep.respond (ep : Ep) (k : Nat) (m : PMsg) (prev : QEntry) (r : React) : Res Ep :=
  (ep.setCtx k (some prev.id) r).bind fun ep =>
    if prev.m.hasCb then
      ((ep.note (.respCb prev.id (some k) ep.now)).respCall m prev r).bind fun (ep, rc) =>
      if rc ≠ 1 then .ok ep else ep.dispatch k (some prev.id) r
    else ep.dispatch k (some prev.id) r

theorem respond_calms {k m prev r} (hr : React.Tame own nid true r) : Calms own nid true fun ep => ep.respond k m prev r := by
  intro ep ep' h hx
  obtain ⟨ep1, h1, hx⟩ := Res.bind_eq_ok hx
  obtain ⟨c1, k1⟩ := setCtx_calms hr _ _ h h1
  split at hx
  · obtain ⟨⟨ep2, rc⟩, h2, hx⟩ := Res.bind_eq_ok hx
    obtain ⟨c2, k2⟩ := respCall_calms hr (c1.note rfl) h2
    have k3 : Kept ep ep2 := (k1 rfl).trans (Kept.trans (Kept.same rfl rfl) k2)
    dsimp only at hx c2
    split at hx
    · cases hx; exact ⟨c2, fun _ => k3⟩
    · obtain ⟨c4, k4⟩ := dispatch_calms hr _ _ c2 hx
      exact ⟨c4, fun hb => k3.trans (k4 hb)⟩
  · obtain ⟨c4, k4⟩ := dispatch_calms hr _ _ c1 hx
    exact ⟨c4, fun hb => (k1 rfl).trans (k4 hb)⟩

theorem handleResponse_eq (ep : Ep) (k m prev r) : ep.handleResponse k m prev r =
    (ep.using prev.id fun ep => ep.respond k m prev r).bind fun ep =>
      if ep.reqs.any fun e => e.id = prev.id then ep.queueDel prev.id else .ub := rfl

theorem Calm.handleRx {ep ep' : Ep} {m b r} (h : Calm own nid ep) (hr : React.Tame own nid b r)
    (hb : m.isResponse = true → b = true) (hx : ep.handleRx m r = .ok ep') :
    Calm own nid ep' := by
  unfold Ep.handleRx at hx
  obtain ⟨ep1, h1, hx⟩ := Res.bind_eq_ok hx
  obtain ⟨ep2, h2, hx⟩ := Res.bind_eq_ok hx
  have c0 : Calm own nid ({ ep with nextId := ep.nextId + 1 }.note (.received ep.nextId m)) :=
    h.same [.received ep.nextId m] rfl (by simp [harmless]) rfl rfl rfl rfl rfl rfl
  have c1 : Calm own nid ep1 := by
    unfold Ep.heartbeatReply at h1
    split at h1
    · obtain ⟨⟨ep3, m3, rc⟩, h3, h1⟩ := Res.bind_eq_ok h1
      cases h1
      refine (Calm.sendMsg (ep := { ({ ep with nextId := ep.nextId + 1 }.note (.received ep.nextId m)) with
        nextId := ({ ep with nextId := ep.nextId + 1 }.note (.received ep.nextId m)).nextId + 1 }) ?_ h3).1
      exact c0.same [] rfl (by simp) rfl rfl rfl rfl rfl rfl
    · cases h1; exact c0
  suffices c2 : Calm own nid ep2 from (c2.release hx).1
  unfold Ep.handleMsg at h2
  split at h2
  · split at h2
    · rename_i hm
      cases hb hm
      rw [handleResponse_eq] at h2
      obtain ⟨ep3, h3, h2⟩ := Res.bind_eq_ok h2
      have c3 := (using_calms (respond_calms hr) _ _ c1 h3).1
      split at h2
      · exact c3.queueDel h2
      · cases h2
    · obtain ⟨ep3, h3, h2⟩ := Res.bind_eq_ok h2
      have c3 := (using_calms (setCtx_calms hr) _ _ c1 h3).1
      dsimp only at h2
      split at h2
      · cases h2
      rename_i e he
      obtain ⟨he, -⟩ := find_id he
      obtain ⟨⟨ep5, m5, rc⟩, h5, h2⟩ := Res.bind_eq_ok h2
      cases h2
      obtain ⟨c5, k5, r5, e5, -⟩ := c3.sendMsg h5
      have := c3.resps e he
      exact c5.setResp (e := { e with m := m5 }) ⟨e5 this.1, r5.trans this.2⟩
  · obtain ⟨ep3, h3, h2⟩ := Res.bind_eq_ok h2
    exact (dispatch_calms hr _ _ (setCtx_calms hr _ _ c1 h3).1 h2).1


/-! ### Functions return -/

theorem sendMsg_total {ep : Ep} {why id io} {m : PMsg} (h : m.encode.Returns) : ∃ r, ep.sendMsg why id m io = .ok r := by
  unfold Ep.sendMsg
  cases hm : m.encode with
  | ok o => dsimp only; split <;> exact ⟨_, rfl⟩
  | err e s => exact ⟨_, rfl⟩
  | abort => rw [hm] at h; cases h
  | ub => rw [hm] at h; cases h
  | diverge => rw [hm] at h; cases h

theorem encoded_returns {m : PMsg} (h : m.encoded.isSome) : m.encode.Returns := by
  unfold PMsg.encode
  cases hm : m.encoded with
  | none => rw [hm] at h; cases h
  | some o => trivial

/-- The functions return if the invariants are true.  Outside of callbacks for messages in a queue, all messages in use
are known. -/
def Total (own : Nat → Prop) (nid : NodeId) (inside : Bool) (f : Ep → Res Ep) : Prop :=
  ∀ T R c ep, Both T R c none ep → Calm own nid ep → (inside = false → ∀ i ∈ ep.busy, i ∈ T.map (·.1)) → ∃ ep', f ep = .ok ep'

theorem outgoing_encode {ep : Ep} {m : PMsg} (h : Calm own nid ep) (hm : m.Sendable nid) : (ep.outgoing m).encode.Returns := by
  unfold PMsg.Sendable at hm
  unfold Ep.outgoing
  rw [h.nid]
  split at hm
  · rename_i hr
    rw [if_pos hr]
    exact hm
  · rename_i hr
    rw [if_neg hr]
    exact hm _ (C30_in_range _).2

theorem tx_total {b T R c} {ep : Ep} {m : PMsg} {io cb} (h : Both T R c none ep) (hc : Calm own nid ep)
    (ha : m.ctx.respCb ≠ some Cb.assoc) (hm : m.Sendable nid) (hk : Keeps cb) (ht : Total own nid b cb)
    (hb : b = false → ∀ i ∈ ep.busy, i ∈ T.map (·.1)) : ∃ ep', (ep.takeUses m.ctx.uses).tx m io cb = .ok ep' := by
  have hc0 : Calm own nid (ep.takeUses m.ctx.uses) := hc.use _
  rw [tx_eq]
  obtain ⟨r, hr⟩ := sendMsg_total (ep := ((ep.takeUses m.ctx.uses).begun m).note (.passed (ep.takeUses m.ctx.uses).nextId
    (ep.takeUses m.ctx.uses).n1 (ep.takeUses m.ctx.uses).t1 ((ep.takeUses m.ctx.uses).outgoing m))) (why := .tx)
    (id := (ep.takeUses m.ctx.uses).nextId) (io := io) (outgoing_encode hc0 hm)
  have hc1 := (((hc0.begun m).note (e := .passed (ep.takeUses m.ctx.uses).nextId
    (ep.takeUses m.ctx.uses).n1 (ep.takeUses m.ctx.uses).t1 ((ep.takeUses m.ctx.uses).outgoing m)) rfl).sendMsg hr).1
  rw [hr]
  have key : ∀ (ep1 : Ep) (m1 : PMsg), Both ((ep.nextId, m.ctx) :: T) R c none ep1 → Calm own nid ep1 → ep1.busy = ep.busy →
      m1.ctx = m.ctx → ∃ ep2, ep1.failCb ep.nextId m1 cb = .ok ep2 ∧ Both ((ep.nextId, m.ctx) :: T) R c none ep2 := by
    intro ep1 m1 hb1 hc1 hbusy hctx
    unfold Ep.failCb
    split
    · obtain ⟨ep2, h2⟩ := ht ((ep.nextId, m.ctx) :: T) R c _ ((hb1.note (e := .respCb ep.nextId none ep1.now) rfl).busy (ep.nextId :: ep1.busy))
        ((hc1.note rfl).busy _) (by
          intro hbf i hi
          rcases List.mem_cons.mp hi with rfl | hi
          · exact .head _
          · rw [hbusy] at hi
            exact .tail _ (hb hbf i hi))
      unfold Ep.using
      have : (ep1.note (.respCb ep.nextId none ep1.now)).busy = ep1.busy := rfl
      rw [this, h2]
      exact ⟨_, rfl, (hk _ _ _ _ _ ((hb1.note (e := .respCb ep.nextId none ep1.now) rfl).busy _) h2).busy _⟩
    · exact ⟨_, rfl, hb1⟩
  rcases sendMsg_ok hr with ⟨o, ho, hs, -, rfl⟩ | ⟨l, e, enc, hl, -, rfl⟩
  · have hb1 := h.begin m (fun hx => absurd hx ha) (l := [.send .tx ep.nextId ((ep.takeUses m.ctx.uses).outgoing m).remote o true
      ((ep.takeUses m.ctx.uses).begun m).now]) rfl (by intro e he; cases List.mem_singleton.mp he; rfl)
    dsimp only at hc1
    simp only [Res.bind_ok']
    unfold Ep.queueAdd
    split
    · obtain ⟨ep2, h2, -⟩ := key _ { (ep.takeUses m.ctx.uses).outgoing m with encoded := some o } hb1 hc1
        (by simp [Ep.logs, Ep.note, Ep.takeUses]) (by simp)
      refine ⟨ep2.note (.returned ep.nextId none), ?_⟩
      show Res.bind (Ep.failCb _ _ _ _) _ = _
      erw [h2]
      rfl
    · split <;> exact ⟨_, rfl⟩
  · have hb1 := h.begin m (fun hx => absurd hx ha) (l := l) rfl (by
      rcases hl with ⟨rfl, _⟩ | ⟨o, _, rfl⟩
      · simp
      · simp [idle, dull, plain])
    dsimp only at hc1
    simp only [Res.bind_ok']
    obtain ⟨ep2, h2, hb2⟩ := key _ { (ep.takeUses m.ctx.uses).outgoing m with encoded := enc } hb1 hc1
      (by simp [Ep.logs, Ep.note, Ep.takeUses]) (by simp)
    obtain ⟨ep3, h3⟩ := releaseUses_total (ep := ep2) (us := m.ctx.uses) (by
      intro u
      have := hb2.use.le u
      simp only [tsum, List.map_cons, List.sum_cons] at this
      omega)
    refine ⟨(ep3.note (.freed ep.nextId)).note (.returned ep.nextId (some e)), ?_⟩
    erw [h2]
    simp only [Res.bind_ok', outgoing_ctx]
    rw [h3]
    rfl

theorem assocStart_total {ep : Ep} {fi p io} (h : Calm own nid ep) (hn : InRange (.nodeId nid)) (hp : ep.peer? fi = some p)
    (hs : p.state = .disabled ∨ p.state = .waitRetry) : ∃ ep', ep.assocStart fi p io = .ok ep' := by
  obtain ⟨ep', q, h1, -⟩ := assocStart_spec hp hs (by rw [h.nid]; exact hn) h.rts io
  exact ⟨ep', h1⟩

theorem associate_total {ep : Ep} {fi io} (h : Calm own nid ep) (hn : InRange (.nodeId nid)) : ∃ ep', ep.associate fi io = .ok ep' := by
  unfold Ep.associate
  cases hp : ep.peer? fi with
  | none => exact ⟨_, rfl⟩
  | some p =>
    dsimp only
    split
    · rename_i hs; exact assocStart_total h hn hp hs
    · exact ⟨_, rfl⟩

theorem txDirect_total {ep : Ep} {m : PMsg} {io why} (h : m.encode.Returns) : ∃ ep', ep.txDirect m io why = .ok ep' := by
  unfold Ep.txDirect
  obtain ⟨r, hr⟩ := sendMsg_total (ep := { ep with nextId := ep.nextId + 1 }) (why := why) (id := ep.nextId) (io := io) h
  rw [hr]
  exact ⟨_, rfl⟩

theorem txHeartbeat_total {ep : Ep} {remote io} : ∃ ep', ep.txHeartbeat remote io = .ok ep' := by
  unfold Ep.txHeartbeat Ep.draw
  refine txDirect_total ?_
  have := heartbeatReq_encode remote ep.rts (nextSeqNr ep.seq).toNat
  rw [this]
  trivial

theorem close_total {T R c b} {ep : Ep} (h : Both T R c none ep) (hb : b = false → ∀ i ∈ ep.busy, i ∈ T.map (·.1)) (hf : b = false) :
    ∃ ep', ep.close = .ok ep' := by
  have hb := hb hf
  unfold Ep.close
  rw [if_neg]
  · obtain ⟨ep1, h1⟩ := releaseUses_total (ep := ep) (us := ((ep.reqs ++ ep.resps).map fun e => e.m.ctx.uses).flatten) (by
      intro u
      rw [qsum_flatten]
      have := h.use.le u
      omega)
    rw [h1]
    exact ⟨_, rfl⟩
  · intro hx
    obtain ⟨e, he, hi⟩ := List.any_eq_true.mp hx
    have hi : e.id ∈ ep.busy := by simpa using hi
    exact (List.nodup_append.mp h.use.ids).2.2 _ (List.mem_map_of_mem he) _ (hb _ hi) rfl

/-- An application that observes the rules does not make the library crash. -/
theorem run_total {b} (hn : InRange (.nodeId nid)) : ∀ a : App, a.Tame own nid b → Total own nid b a.run := by
  intro a
  induction a with
  | done => exact fun _ T R c ep _ _ _ => ⟨ep, rfl⟩
  | tx m io f r hf hr =>
    rintro ⟨h1, h2, h3, h4⟩ T R c ep hB hC hb
    unfold App.run
    rw [if_neg h1]
    obtain ⟨ep1, he⟩ := tx_total (io := io) hB hC h1 h2 (run_keeps f) (hf h3) hb
    rw [he]
    have hC1 := (tx_calms (run_calms f h3) _ _ (hC.use _) he).1
    have hb1 : ep1.busy = ep.busy := (tx_goes (run_goes f) he).1
    exact hr h4 T R c ep1 (hB.tx h1 (run_keeps f) he) hC1 (by rw [hb1]; exact hb)
  | txData m io r hr =>
    rintro ⟨h1, h2⟩ T R c ep hB hC hb
    obtain ⟨ep1, he⟩ := txDirect_total (ep := ep) (io := io) h1
    unfold App.run
    rw [he]
    exact hr h2 T R c ep1 (txDirect_both hB he) (txDirect_calms (b := true) _ _ hC he).1 (by rw [(txDirect_goes he).1]; exact hb)
  | heartbeat remote io r hr =>
    intro h1 T R c ep hB hC hb
    obtain ⟨ep1, he⟩ := txHeartbeat_total (ep := ep) (remote := remote) (io := io)
    have hx : App.run (.heartbeat remote io .done) ep = .ok ep1 := by
      unfold App.run
      rw [he]
      rfl
    unfold App.run
    rw [he]
    exact hr h1 T R c ep1 (run_keeps _ _ _ _ _ _ hB hx) (run_calms (own := own) (nid := nid) (b := true) (.heartbeat remote io .done) trivial _ _ hC hx).1 (by rw [(run_goes _ _ _ hx).1]; exact hb)
  | invalidate fi r hr =>
    rintro ⟨h1, h2⟩ T R c ep hB hC hb
    exact hr h2 T R c _ (hB.invalidate fi) (hC.invalidate h1).1 hb
  | setSeq s r hr =>
    intro h1 T R c ep hB hC hb
    have hx : App.run (.setSeq s .done) ep = .ok { ep with seq := s, resets := ep.resets + 1 } := rfl
    exact hr h1 T R c _ (run_keeps _ _ _ _ _ _ hB hx) (run_calms (own := own) (nid := nid) (b := true) (.setSeq s .done) trivial _ _ hC hx).1 hb
  | setTimers n1 t1 kr r hr =>
    intro h1 T R c ep hB hC hb
    have hx : App.run (.setTimers n1 t1 kr .done) ep = .ok ({ ep with n1 := n1, t1 := t1, keepResp := kr }.note (.config n1 t1 kr)) := rfl
    exact hr h1 T R c _ (run_keeps _ _ _ _ _ _ hB hx) (run_calms (own := own) (nid := nid) (b := true) (.setTimers n1 t1 kr .done) trivial _ _ hC hx).1 hb
  | close r hr =>
    rintro ⟨h1, h2⟩ T R c ep hB hC hb
    obtain ⟨ep1, he⟩ := close_total hB hb h1
    unfold App.run
    rw [he]
    exact hr h2 T R c ep1 (hB.close he) (hC.close he) (by rw [(close_goes he).1]; exact hb)
  | bind ok r hr =>
    rintro ⟨h1, h2⟩ T R c ep hB hC hb
    obtain ⟨ep1, he⟩ := close_total hB hb h1
    have hx : App.run (.bind ok .done) ep = .ok { ep1 with sock := ep1.cfg.hasRx && ok } := by
      unfold App.run Ep.bind
      rw [he]
      rfl
    have hx' : App.run (.bind ok r) ep = r.run { ep1 with sock := ep1.cfg.hasRx && ok } := by
      show (ep.bind ok).bind r.run = _
      unfold Ep.bind
      rw [he]
      simp only [Res.bind_ok']
    rw [hx']
    exact hr h2 T R c _ (run_keeps _ _ _ _ _ _ hB hx) (run_calms (b := false) (.bind ok .done) ⟨rfl, trivial⟩ _ _ hC hx).1
      (by rw [(run_goes _ _ _ hx).1]; exact hb)
  | setT26 t r hr =>
    intro h1 T R c ep hB hC hb
    have hx : App.run (.setT26 t .done) ep = .ok ({ ep with t26 := t }.note (.configT26 t)) := rfl
    exact hr h1 T R c _ (run_keeps _ _ _ _ _ _ hB hx) (run_calms (own := own) (nid := nid) (b := true) (.setT26 t .done) trivial _ _ hC hx).1 hb
  | newPeer fi remote r hr =>
    rintro ⟨h1, h2⟩ T R c ep hB hC hb
    have hx : App.run (.newPeer fi remote .done) ep = .ok (ep.newPeer fi remote) := rfl
    exact hr h2 T R c _ (run_keeps _ _ _ _ _ _ hB hx) (hC.newPeer h1).1 (by rw [(run_goes _ _ _ hx).1]; exact hb)
  | setAssocCb fi b' r hr =>
    intro h1 T R c ep hB hC hb
    have hx : App.run (.setAssocCb fi b' .done) ep = .ok (ep.setAssocCb fi b') := rfl
    exact hr h1 T R c _ (run_keeps _ _ _ _ _ _ hB hx) (hC.setAssocCb fi b').1 (by rw [(run_goes _ _ _ hx).1]; exact hb)
  | associate fi io r hr =>
    intro h1 T R c ep hB hC hb
    obtain ⟨ep1, he⟩ := associate_total (fi := fi) (io := io) hC hn
    unfold App.run
    rw [he]
    exact hr h1 T R c ep1 (hB.associate he) (associate_calms (b := true) _ _ hC he).1 (by rw [(associate_goes he).1]; exact hb)

/-! ### Timers return -/

/-- A pending request of a CP peer still has its FSM instance. -/
theorem assocResp_total {T R} {ep : Ep} {e resp} {cb : Ep → Res Ep} (h : Both T R none none ep) (hc : Calm own nid ep) (he : e ∈ ep.reqs)
    (ha : e.m.ctx.respCb = some Cb.assoc) (ht : Total own nid true cb)
    (hm : ∀ m, resp = some m → m.accepted = true → ∃ k t, .respCb e.id (some k) t ∈ ep.log ∧ .received k m ∈ ep.log ∧
      m.isResponse = true ∧ m.h.seq = e.m.h.seq) : ∃ ep', ep.assocResp e.m.ctx resp cb = .ok ep' := by
  obtain ⟨m, h1, h2, -⟩ := h.use.queued e (List.mem_append_left _ he)
  obtain ⟨n1, t1, hp⟩ := live_passed h1
  have ha' := h2.respCb.symm.trans ha
  obtain ⟨fi, hfi⟩ := Option.isSome_iff_exists.mp ((h.use.old _ _ _ _ hp).2 ha')
  have hae : AssocEntry ep.log fi e := owner_of hp ha' hfi (fun a b c' a' b' c'' => h.use.one _ a b c' a' b' c'')
  obtain ⟨p, hpe, hst, -⟩ := h.peer.pend fi e he hae (by simp)
  have hf : e.m.ctx.peerFi = some fi := by
    rcases h2.peer with ⟨h3, _⟩ | ⟨⟨f, h3, h4⟩, _⟩
    · exact h3.trans hfi
    · rw [hfi] at h3
      cases h3
      have ho := hc.peers p (List.mem_of_find?_eq_some hpe)
      rw [peer?_fi hpe] at ho
      exact absurd ho (hc.inval _ h4)
  have key : ∀ (cb : Ep → Res Ep), ep.assocResp e.m.ctx resp cb = (match resp with
      | none => .ok (ep.peerChg fi .waitRetry)
      | some m =>
        if ¬ m.accepted then .ok (ep.peerChg fi .waitRetry)
        else if p.hasCb then cb ((ep.peerChg fi .associated).note (.peer fi (.assocCb true))) else .ok (ep.peerChg fi .associated)) := by
    intro cb
    unfold Ep.assocResp
    rw [hf]
    dsimp only
    rw [hpe]
    dsimp only
    cases resp with
    | none => rfl
    | some m =>
      dsimp only
      rw [if_neg (by simp [hst] : ¬ p.state ≠ PState.waitAssoc)]
  cases resp with
  | none => exact ⟨_, key cb⟩
  | some m =>
    have k := key cb
    have k0 := key .ok
    dsimp only at k k0
    by_cases hac : m.accepted = true
    · rw [if_neg (by simpa using hac)] at k k0
      by_cases hcb : p.hasCb = true
      · rw [if_pos hcb] at k k0
        have hB := h.assocResp he (h.use.queuedOld e (List.mem_append_left _ he)) ha ok_keeps hm k0
        rw [k]
        exact ht _ _ _ _ hB ((hc.peerChg fi _).1.note rfl) (fun h => by cases h)
      · rw [if_neg hcb] at k
        exact ⟨_, k⟩
    · rw [if_pos (by simpa using hac)] at k
      exact ⟨_, k⟩

theorem using_returns {ep ep1 : Ep} {id} {f : Ep → Res Ep} (h : f { ep with busy := id :: ep.busy } = .ok ep1) :
    ep.using id f = .ok { ep1 with busy := ep.busy } := by
  unfold Ep.using
  rw [h]
  rfl

theorem ok_total (b) : Total own nid b .ok := fun _ _ _ ep _ _ _ => ⟨ep, rfl⟩

theorem del_total {T R} {ep0 ep : Ep} {id} (h : UseInv T R ep) (hk : Kept ep0 ep) (he : ∃ e ∈ ep0.reqs, e.id = id) :
    ∃ ep', (if (ep.reqs.any fun e => e.id = id) = true then ep.queueDel id else Res.ub) = .ok ep' := by
  obtain ⟨e, he, rfl⟩ := he
  obtain ⟨e', he', hi⟩ := hk.1 e he
  rw [if_pos (List.any_eq_true.mpr ⟨e', he', by simpa using hi⟩)]
  exact h.queueDel_total _

theorem retrans_total {ep : Ep} {e : QEntry} {io} (he : e.m.encoded.isSome) : ∃ r, ep.retrans e io = .ok r := by
  unfold Ep.retrans
  split
  · exact ⟨_, rfl⟩
  · obtain ⟨⟨ep1, m1, rc⟩, h1⟩ := sendMsg_total (ep := ep) (why := .retrans) (id := e.id) (io := io) (encoded_returns he)
    rw [h1]
    cases rc <;> exact ⟨_, rfl⟩

theorem reqTimer_total {T R} {ep : Ep} {id io} {a : App} (hn : InRange (.nodeId nid)) (h : Both T R none none ep) (hc : Calm own nid ep)
    (ha : a.Tame own nid true) : ∃ ep', ep.reqTimer id io a.run = .ok ep' := by
  unfold Ep.reqTimer
  cases hf : ep.reqs.find? (fun e => e.id = id) with
  | none => exact ⟨_, rfl⟩
  | some e =>
    dsimp only
    obtain ⟨he, rfl⟩ := find_id hf
    obtain ⟨he1, he2⟩ := hc.reqs e he
    by_cases hex : e.expired ep.now = true
    rotate_left
    · rw [if_pos hex]; exact ⟨_, rfl⟩
    rw [if_neg (by simpa using hex), if_neg (by simp [he2])]
    obtain ⟨⟨ep1, keep⟩, h1⟩ := retrans_total (ep := { ep with reqs := setEntry ep.reqs { e with timer := none } })
      (e := { e with timer := none }) (io := io) he1
    rw [h1]
    simp only [Res.bind_ok']
    split
    · exact ⟨_, rfl⟩
    obtain ⟨hb, e1, he1', hi1, hc1⟩ := h.retrans he h1
    have c1 := ((hc.setReq (e := { e with timer := none }) (hc.reqs e he)).1.retrans (e := { e with timer := none }) (hc.reqs e he) h1).1
    split
    · have hb' := (hb.note (e := .respCb e.id none ep1.now) rfl).busy (e.id :: ep1.busy)
      have hc' : Calm own nid { ep1.note (.respCb e.id none ep1.now) with busy := e.id :: ep1.busy } := (c1.note rfl).busy _
      have hfun : ∃ ep2, (if e.m.ctx.respCb = some Cb.assoc then
          Ep.assocResp { ep1.note (.respCb e.id none ep1.now) with busy := e.id :: ep1.busy } e.m.ctx none .ok
          else a.run { ep1.note (.respCb e.id none ep1.now) with busy := e.id :: ep1.busy }) = .ok ep2 ∧
          Kept ep1 ep2 ∧ ∃ T R, UseInv T R ep2 := by
        split
        · rename_i has
          obtain ⟨ep2, h2⟩ := assocResp_total (resp := none) (cb := .ok) hb' hc' (e := e1) he1' (by rw [hc1]; exact has) (ok_total true) (by intro m hm; cases hm)
          have hB := hb'.assocResp he1' (hb.use.queuedOld e1 (List.mem_append_left _ he1')) (by rw [hc1]; exact has) ok_keeps (by intro m hm; cases hm) h2
          rw [hc1] at h2
          have k := (assocResp_calms (own := own) (nid := nid) (ok_calms' true) _ _ hc' h2).2 rfl
          exact ⟨ep2, h2, Kept.trans (Kept.same rfl rfl) k, _, _, hB.use⟩
        · obtain ⟨ep2, h2⟩ := run_total hn a ha _ _ _ _ hb' hc' (fun h => by cases h)
          have k := (run_calms a ha _ _ hc' h2).2 rfl
          exact ⟨ep2, h2, Kept.trans (Kept.same rfl rfl) k, _, _, (run_keeps a _ _ _ _ _ hb' h2).use⟩
      obtain ⟨ep2, h2, k2, T2, R2, hu2⟩ := hfun
      rw [using_returns (ep := ep1.note (.respCb e.id none ep1.now)) (id := e.id) (f := fun ep =>
        if e.m.ctx.respCb = some Cb.assoc then ep.assocResp e.m.ctx none .ok else a.run ep) h2]
      simp only [Res.bind_ok']
      exact del_total (ep0 := ep1) (ep := { ep2 with busy := ep1.busy }) (hu2.logs [] rfl (by simp) (Nat.le_refl _) rfl rfl rfl) (k2.trans (.same rfl rfl)) ⟨e1, he1', hi1⟩
    · exact del_total (ep0 := ep1) hb.use (.refl _) ⟨e1, he1', hi1⟩

theorem respTimer_total {T R} {ep : Ep} {id} (h : UseInv T R ep) (hc : Calm own nid ep) : ∃ ep', ep.respTimer id = .ok ep' := by
  unfold Ep.respTimer
  cases hf : ep.resps.find? (fun e => e.id = id) with
  | none => exact ⟨_, rfl⟩
  | some e =>
    dsimp only
    obtain ⟨he, rfl⟩ := find_id hf
    split
    · exact ⟨_, rfl⟩
    · rw [if_neg (by simp [(hc.resps e he).2])]
      exact h.queueDel_total _

theorem peerTimer_total {T R c} {ep : Ep} {fi io} (hn : InRange (.nodeId nid)) (h : Both T R c none ep) (hc : Calm own nid ep) :
    ∃ ep', ep.peerTimer fi io = .ok ep' := by
  rcases h.peer.peerTimer_eq fi io with ⟨hx, _⟩ | ⟨p, hp, hs, _, hx⟩
  · exact ⟨_, hx⟩
  · rw [hx]
    exact assocStart_total hc hn hp (.inr hs)

/-! ### Reception returns -/

theorem setCtx_total {T R c} {ep : Ep} {k req b r} (hn : InRange (.nodeId nid)) (h : Both T R c none ep) (hc : Calm own nid ep)
    (hr : React.Tame own nid b r) : ∃ ep', ep.setCtx k req r = .ok ep' := by
  unfold Ep.setCtx
  split
  · exact run_total hn _ hr.1 _ _ _ _ ((h.note (e := .setCtx k req) rfl).take _) ((hc.note (e := .setCtx k req) rfl).use _) (fun h => by cases h)
  · exact ⟨_, rfl⟩

theorem dispatch_total {T R c} {ep : Ep} {k req b r} (hn : InRange (.nodeId nid)) (h : Both T R c none ep) (hc : Calm own nid ep)
    (hr : React.Tame own nid b r) (hb : b = false → ep.busy = []) : ∃ ep', ep.dispatch k req r = .ok ep' :=
  run_total hn _ hr.2.2 _ _ _ _ (h.note rfl) (hc.note rfl) (fun h i hi => by
    have : i ∈ ep.busy := hi
    rw [hb h] at this
    cases this)

theorem find_total {q : List QEntry} {e : QEntry} (he : e ∈ q) : ∃ e', q.find? (fun x => x.id = e.id) = some e' := by
  cases hf : q.find? (fun x => x.id = e.id) with
  | some e' => exact ⟨e', rfl⟩
  | none =>
    have := List.find?_eq_none.mp hf e he
    simp at this

theorem respond_total {T R} {ep : Ep} {k m prev r} (hn : InRange (.nodeId nid)) (h : Both T R none none ep) (hc : Calm own nid ep)
    (hr : React.Tame own nid true r) (hp : prev ∈ ep.reqs) (hseq : prev.m.h.seq = m.h.seq) (hm : m.isResponse = true)
    (hk : .received k m ∈ ep.log) : ∃ ep', ep.respond k m prev r = .ok ep' := by
  obtain ⟨ep1, h1⟩ := setCtx_total (k := k) (req := some prev.id) hn h hc hr
  have hb1 := h.setCtx h1
  obtain ⟨c1, k1⟩ := setCtx_calms hr _ _ hc h1
  obtain ⟨l1, hl1, -⟩ := setCtx_adds h1
  unfold Ep.respond
  rw [h1]
  simp only [Res.bind_ok']
  split
  · have hb2 := hb1.note (e := .respCb prev.id (some k) ep1.now) rfl
    have c2 := c1.note (e := .respCb prev.id (some k) ep1.now) rfl
    unfold Ep.respCall
    split
    · rename_i ha
      obtain ⟨e0, he0, hi0⟩ := (k1 rfl).1 prev hp
      obtain ⟨e, hf⟩ := find_total (q := (ep1.note (.respCb prev.id (some k) ep1.now)).reqs) he0
      rw [hi0] at hf
      rw [hf]
      dsimp only
      obtain ⟨he, hei⟩ := find_id hf
      have hsame := same_message (l := l1) h.use hb1.use hl1 (List.mem_append_left _ hp) (List.mem_append_left _ he) hei
      obtain ⟨ep3, h3⟩ := assocResp_total (resp := some m) (cb := r.onResp.run) hb2 c2 he (by rw [hsame.1]; exact ha)
        (run_total hn _ hr.2.1) (by
          rintro _ ⟨⟩ _
          refine ⟨k, ep1.now, ?_, ?_, hm, ?_⟩
          · rw [hei]; exact .head _
          · refine .tail _ ?_
            rw [hl1]
            exact List.mem_append_right _ hk
          · rw [hsame.2]; exact hseq.symm)
      rw [h3]
      exact ⟨_, rfl⟩
    · obtain ⟨ep3, h3⟩ := run_total hn _ hr.2.1 _ _ _ _ hb2 c2 (fun h => by cases h)
      rw [h3]
      simp only [Res.bind_ok']
      split
      · exact ⟨_, rfl⟩
      · exact dispatch_total hn (run_keeps _ _ _ _ _ _ hb2 h3) (run_calms _ hr.2.1 _ _ c2 h3).1 hr nofun
  · exact dispatch_total hn hb1 c1 hr nofun

theorem handleResponse_total {T R} {ep : Ep} {k m prev r} (hn : InRange (.nodeId nid)) (h : Both T R none none ep) (hc : Calm own nid ep)
    (hr : React.Tame own nid true r) (hp : prev ∈ ep.reqs) (hseq : prev.m.h.seq = m.h.seq) (hm : m.isResponse = true)
    (hk : .received k m ∈ ep.log) : ∃ ep', ep.handleResponse k m prev r = .ok ep' := by
  rw [handleResponse_eq]
  have hb := h.busy (prev.id :: ep.busy)
  have hc' := hc.busy (prev.id :: ep.busy)
  obtain ⟨ep1, h1⟩ := respond_total (ep := { ep with busy := prev.id :: ep.busy }) (k := k) hn hb hc' hr hp hseq hm hk
  have k1 := (respond_calms hr _ _ hc' h1).2 rfl
  rw [using_returns (ep := ep) (f := fun ep => ep.respond k m prev r) h1]
  simp only [Res.bind_ok']
  have hu : ∃ T R, UseInv T R ep1 := by
    obtain ⟨ep2, h2, h1⟩ := Res.bind_eq_ok h1
    have hb2 := hb.setCtx h2
    obtain ⟨l2, hl2, -⟩ := setCtx_adds h2
    split at h1
    · obtain ⟨⟨ep3, rc⟩, h3, h1⟩ := Res.bind_eq_ok h1
      have hb3 := hb2.note (e := .respCb prev.id (some k) ep2.now) rfl
      dsimp only at h1
      unfold Ep.respCall at h3
      split at h3
      · rename_i ha
        split at h3
        · cases h3
        rename_i e hf
        obtain ⟨he, hei⟩ := find_id hf
        obtain ⟨ep4, h4, h3⟩ := Res.bind_eq_ok h3
        cases h3
        rw [if_pos (by simp)] at h1
        cases h1
        have hsame := same_message (l := l2) h.use hb2.use hl2 (List.mem_append_left _ hp) (List.mem_append_left _ he) hei
        refine ⟨_, _, (hb3.assocResp he (hb2.use.queuedOld e (List.mem_append_left _ he)) (by rw [hsame.1]; exact ha) (run_keeps r.onResp) ?_ h4).use⟩
        rintro _ ⟨⟩ _
        refine ⟨k, ep2.now, ?_, ?_, hm, ?_⟩
        · rw [hei]; exact .head _
        · refine .tail _ ?_
          rw [hl2]
          exact List.mem_append_right _ hk
        · rw [hsame.2]; exact hseq.symm
      · obtain ⟨ep4, h4, h3⟩ := Res.bind_eq_ok h3
        cases h3
        have hb4 := run_keeps _ _ _ _ _ _ hb3 h4
        split at h1
        · cases h1; exact ⟨_, _, hb4.use⟩
        · exact ⟨_, _, (hb4.dispatch h1).use⟩
    · exact ⟨_, _, (hb2.dispatch h1).use⟩
  obtain ⟨T2, R2, hu⟩ := hu
  exact del_total (ep0 := ep) (ep := { ep1 with busy := ep.busy }) (hu.logs [] rfl (by simp) (Nat.le_refl _) rfl rfl rfl) (Kept.trans (Kept.same rfl rfl) (Kept.trans k1 (.same rfl rfl))) ⟨prev, hp, rfl⟩

theorem handleDuplicate_total {T R} {ep : Ep} {k prev b r} (hn : InRange (.nodeId nid)) (h : Both T R none none ep) (hc : Calm own nid ep)
    (hr : React.Tame own nid b r) (hp : prev ∈ ep.resps) : ∃ ep', ep.handleDuplicate k prev r = .ok ep' := by
  have hb := h.busy (prev.id :: ep.busy)
  have hc' := hc.busy (prev.id :: ep.busy)
  obtain ⟨ep1, h1⟩ := setCtx_total (k := k) (req := none) hn hb hc' hr
  obtain ⟨c1, k1⟩ := setCtx_calms hr _ _ hc' h1
  unfold Ep.handleDuplicate
  rw [using_returns (ep := ep) (f := fun ep => ep.setCtx k none r) h1]
  simp only [Res.bind_ok']
  obtain ⟨e0, he0, hi0⟩ := (k1 rfl).2 prev hp
  obtain ⟨e, hf⟩ := find_total he0
  rw [hi0] at hf
  rw [hf]
  dsimp only
  obtain ⟨he, -⟩ := find_id hf
  obtain ⟨⟨ep2, m2, rc⟩, h2⟩ := sendMsg_total (ep := { ep1 with busy := ep.busy }) (why := .cachedReply k) (id := e.id) (io := r.io)
    (encoded_returns (c1.resps e he).1)
  rw [h2]
  exact ⟨_, rfl⟩

theorem heartbeatReply_total {ep : Ep} {k m io} (h : Both [] [] none none ep) (hc : Calm own nid ep) (hk : .received k m ∈ ep.log) :
    ∃ ep1, ep.heartbeatReply k m io = .ok ep1 ∧ Both [] [] none none ep1 ∧ Calm own nid ep1 ∧ .received k m ∈ ep1.log := by
  have h1 : ∃ ep1, ep.heartbeatReply k m io = .ok ep1 := by
    unfold Ep.heartbeatReply
    split
    · obtain ⟨⟨ep2, m2, rc⟩, h2⟩ := sendMsg_total (ep := { ep with nextId := ep.nextId + 1 }) (why := .heartbeatReply k)
        (id := ep.nextId) (io := io) (m := heartbeatResp m ep.rts) (by rw [heartbeatResp_encode]; trivial)
      rw [h2]
      exact ⟨_, rfl⟩
    · exact ⟨_, rfl⟩
  obtain ⟨ep1, h1⟩ := h1
  have hk : .received k m ∈ ep1.log := by
    obtain ⟨l, hl⟩ := heartbeatReply_log h1
    rw [hl]
    exact List.mem_append_right _ hk
  have hboth : Both [] [] none none ep1 ∧ Calm own nid ep1 := by
    unfold Ep.heartbeatReply at h1
    split at h1
    · obtain ⟨⟨ep3, m3, rc⟩, h3, h1⟩ := Res.bind_eq_ok h1
      cases h1
      refine ⟨Both.sendMsg (ep := { ep with nextId := ep.nextId + 1 }) ?_ h3,
        (Calm.sendMsg (ep := { ep with nextId := ep.nextId + 1 }) ?_ h3).1⟩
      · exact h.same [] rfl (by simp) rfl (Nat.le_succ _) rfl rfl rfl rfl
      · exact hc.same [] rfl (by simp) rfl rfl rfl rfl rfl rfl
    · cases h1; exact ⟨h, hc⟩
  exact ⟨ep1, h1, hboth.1, hboth.2, hk⟩

theorem handleRx_total {ep : Ep} {m b r} (hn : InRange (.nodeId nid)) (h : Both [] [] none none ep) (hc : Calm own nid ep)
    (hr : React.Tame own nid b r) (hb : m.isResponse = true → b = true) (hbusy : ep.busy = []) : ∃ ep', ep.handleRx m r = .ok ep' := by
  have hb0 : Both [] [] none none ({ ep with nextId := ep.nextId + 1 }.note (.received ep.nextId m)) :=
    h.same [.received ep.nextId m] rfl (by simp [idle, dull, plain]) rfl (Nat.le_succ _) rfl rfl rfl rfl
  have hc0 : Calm own nid ({ ep with nextId := ep.nextId + 1 }.note (.received ep.nextId m)) :=
    hc.same [.received ep.nextId m] rfl (by simp [harmless]) rfl rfl rfl rfl rfl rfl
  obtain ⟨ep1, h1, hb1, c1, hk⟩ := heartbeatReply_total (k := ep.nextId) (io := r.io) hb0 hc0 (.head _)
  have h2 : ∃ ep2, ep1.handleMsg ep.nextId m r = .ok ep2 := by
    unfold Ep.handleMsg
    split
    · rename_i prev hq
      by_cases hm : m.isResponse = true
      · rw [if_pos hm] at hq ⊢
        obtain ⟨hq1, hq2⟩ := queueFind_some hq
        cases hb hm
        exact handleResponse_total hn hb1 c1 hr hq1 hq2 hm hk
      · rw [if_neg hm] at hq ⊢
        obtain ⟨hq1, -⟩ := queueFind_some hq
        exact handleDuplicate_total hn hb1 c1 hr hq1
    · obtain ⟨ep3, h3⟩ := setCtx_total (k := ep.nextId) (req := none) hn hb1 c1 hr
      rw [h3]
      refine dispatch_total hn (hb1.setCtx h3) (setCtx_calms hr _ _ c1 h3).1 hr fun _ => ?_
      rw [(setCtx_none_goes h3).1, (heartbeatReply_goes (.head _) h1).1]
      exact hbusy
  obtain ⟨ep2, h2⟩ := h2
  unfold Ep.handleRx
  dsimp only
  rw [h1]
  simp only [Res.bind_ok']
  rw [h2]
  simp only [Res.bind_ok']
  have key : Both [] (ep1.rxUses r ++ []) none none ep2 ∧ ep2.cfg = ep1.cfg := handleMsg_both hb1 hk h2
  refine releaseUses_total ?_
  intro u
  have huse : ep2.rxUses r = ep1.rxUses r := by unfold Ep.rxUses; rw [key.2]
  rw [huse]
  have := key.1.use.le u
  simp only [List.append_nil] at this
  omega

/-- Where nothing is done. -/
theorem React.tame_default {b} : React.Tame own nid b {} := ⟨trivial, trivial, trivial⟩

theorem handleAll_total {remote b} (hn : InRange (.nodeId nid)) : ∀ {l : List Rx} {rs : List React} {ep : Ep}, Both [] [] none none ep → Calm own nid ep →
    (∀ r ∈ rs, React.Tame own nid b r) → (∀ x ∈ l, x.hdr.isResponse = true → b = true) → ep.busy = [] →
    ∃ ep', ep.handleAll remote l rs = .ok ep' ∧ Calm own nid ep'
  | [], _, ep, _, hc, _, _, _ => ⟨ep, rfl, hc⟩
  | ⟨_, none⟩ :: l, rs, ep, h, hc, hr, hb, hy => handleAll_total hn (l := l) h hc hr (fun x hx => hb x (.tail _ hx)) hy
  | ⟨d, some ies⟩ :: l, rs, ep, h, hc, hr, hb, hy => by
    have hr0 : React.Tame own nid b (rs.headD {}) := by
      cases rs with
      | nil => exact React.tame_default
      | cons r rs => exact hr r (.head _)
    obtain ⟨ep1, h1⟩ := handleRx_total (m := Rx.msg remote d ies) hn h hc hr0 (hb ⟨d, some ies⟩ (.head _)) hy
    obtain ⟨ep2, h2, c2⟩ := handleAll_total hn (remote := remote) (l := l) (rs := rs.tail) (h.handleRx h1)
      (hc.handleRx hr0 (hb ⟨d, some ies⟩ (.head _)) h1)
      (fun r hx => hr r (List.mem_of_mem_tail hx)) (fun x hx => hb x (.tail _ hx)) (handleRx_tops h1 hy).1
    refine ⟨ep2, ?_, c2⟩
    unfold Ep.handleAll
    rw [h1]
    exact h2

/-- The receive loop, for a datagram whose length fields cover the headers. -/
theorem rxLoop_total (slack : List UInt8) (hz : 0 ∈ slack) (o : List UInt8) (hcov : Covered o) :
    ∀ (fuel i : Nat), Begins o i → i ≤ o.length → (o.length - i) / 4 < fuel →
      ∃ l, rxLoop fuel (o.drop i ++ slack) (o.length - i) = .ok l
  | 0, _, _, _, hf => by omega
  | fuel + 1, i, hb, hi, hf => by
    have hlen : (o.drop i).length = o.length - i := by simp
    unfold rxLoop
    split
    · exact ⟨_, rfl⟩
    rename_i hne
    have hform := decodeHeader_form (o.drop i) slack
    rw [hlen] at hform
    cases hd : decodeHeader (some (o.drop i ++ slack)) (o.length - i) with
    | err e => exact ⟨_, rfl⟩
    | abort => rw [hd] at hform; split at hform; · cases hform
               split at hform; · cases hform
               split at hform <;> cases hform
    | ub => rw [hd] at hform; split at hform; · cases hform
            split at hform; · cases hform
            split at hform <;> cases hform
    | diverge => rw [hd] at hform; split at hform; · cases hform
                 split at hform; · cases hform
                 split at hform <;> cases hform
    | ok d =>
      rw [hd] at hform
      split at hform
      · cases hform
      rename_i hsz
      split at hform
      · cases hform
      rename_i hann
      split at hform
      · cases hform
      have hmsg : d.msgLen = announcedLength (o.drop i) := by cases hform; rfl
      have hle : announcedHeader (o.drop i) ≤ announcedLength (o.drop i) := hcov i hb (by omega)
      have hret := C22_decode_tlv_returns_partial (o.drop i) slack d (by rw [hlen]; exact hd) hle hz
      have hml := decodeHeader_msgLen hd
      have e1 : (o.drop i ++ slack).drop d.msgLen = o.drop (i + d.msgLen) ++ slack := by
        rw [List.drop_append_of_le_length (by rw [hlen]; omega), List.drop_drop]
      have e2 : o.length - i - d.msgLen = o.length - (i + d.msgLen) := by omega
      have h4 : 4 ≤ d.msgLen := hml.1
      obtain ⟨l, hl⟩ := rxLoop_total slack hz o hcov fuel (i + d.msgLen) (by rw [hmsg]; exact hb.next) (by omega) (by omega)
      dsimp only
      rw [e1, e2, hl]
      cases ht : decodeTlv d with
      | ok ies => exact ⟨_, rfl⟩
      | err e => exact ⟨_, rfl⟩
      | abort => rw [ht] at hret; cases hret
      | ub => rw [ht] at hret; cases hret
      | diverge => rw [ht] at hret; cases hret

theorem rxBundle_total {o slack : List UInt8} (hz : 0 ∈ slack) (hcov : Covered o) :
    ∃ l, rxBundle (o.length + 1) (.received o) slack = .ok l := by
  rw [rxBundle_eq]
  have := rxLoop_total slack hz o hcov (o.length + 1) 0 .first (Nat.zero_le _) (by omega)
  simpa using this

/-- Which messages of a datagram are responses. -/
theorem rxLoop_response (slack : List UInt8) (o : List UInt8) :
    ∀ (fuel i : Nat) (l : List Rx), Begins o i → i ≤ o.length → rxLoop fuel (o.drop i ++ slack) (o.length - i) = .ok l →
      ∀ x ∈ l, ∃ j, Begins o j ∧ x.hdr.isResponse = isResponseType ((o.drop j)[1]?.getD 0).toNat
  | 0, _, l, _, _, h => by cases h
  | fuel + 1, i, l, hb, hi, h => by
    have hlen : (o.drop i).length = o.length - i := by simp
    unfold rxLoop at h
    split at h
    · cases h; nofun
    have hform := decodeHeader_form (o.drop i) slack
    rw [hlen] at hform
    cases hd : decodeHeader (some (o.drop i ++ slack)) (o.length - i) with
    | err e => rw [hd] at h; cases h; nofun
    | abort => rw [hd] at h; cases h
    | ub => rw [hd] at h; cases h
    | diverge => rw [hd] at h; cases h
    | ok d =>
      rw [hd] at hform h
      split at hform
      · cases hform
      split at hform
      · cases hform
      split at hform
      · cases hform
      have hmsg : d.msgLen = announcedLength (o.drop i) := by cases hform; rfl
      have hresp : d.isResponse = isResponseType ((o.drop i)[1]?.getD 0).toNat := by cases hform; rfl
      have hml := decodeHeader_msgLen hd
      have e1 : (o.drop i ++ slack).drop d.msgLen = o.drop (i + d.msgLen) ++ slack := by
        rw [List.drop_append_of_le_length (by rw [hlen]; omega), List.drop_drop]
      have e2 : o.length - i - d.msgLen = o.length - (i + d.msgLen) := by omega
      dsimp only at h
      rw [e1, e2] at h
      have key := fun l' => rxLoop_response slack o fuel (i + d.msgLen) l' (by rw [hmsg]; exact hb.next) (by omega)
      cases ht : decodeTlv d with
      | ok ies =>
        rw [ht] at h
        obtain ⟨l', h1, h⟩ := Res.bind_eq_ok h
        cases h
        intro x hx
        rcases List.mem_cons.1 hx with rfl | hx
        · exact ⟨i, hb, hresp⟩
        · exact key l' h1 x hx
      | err e =>
        rw [ht] at h
        obtain ⟨l', h1, h⟩ := Res.bind_eq_ok h
        cases h
        intro x hx
        rcases List.mem_cons.1 hx with rfl | hx
        · exact ⟨i, hb, hresp⟩
        · exact key l' h1 x hx
      | abort => rw [ht] at h; cases h
      | ub => rw [ht] at h; cases h
      | diverge => rw [ht] at h; cases h

theorem rxDatagram_total {ep : Ep} {remote} {d : List UInt8} {rs} (hn : InRange (.nodeId nid)) (h : Both [] [] none none ep) (hc : Calm own nid ep)
    (hd : d.length < 2048) (hcov : Covered d)
    (hr : (∀ r ∈ rs, React.Tame own nid true r) ∨ (Asks d ∧ ∀ r ∈ rs, React.Tame own nid false r)) (hy : ep.busy = []) :
    ∃ ep', ep.rxDatagram remote d rs = .ok ep' ∧ Calm own nid ep' := by
  unfold Ep.rxDatagram
  have ht : d.take allocSize = d := List.take_of_length_le (by unfold allocSize; omega)
  dsimp only
  rw [ht]
  split
  · exact ⟨_, rfl, hc⟩
  rename_i hs
  rw [if_neg (by
    intro hx
    refine hs (.inl ?_)
    intro hk
    exact hx (hc.sock hk))]
  obtain ⟨l, hl⟩ := rxBundle_total (o := d) (slack := List.replicate (allocSize - d.length) 0)
    (List.mem_replicate.mpr ⟨by unfold allocSize; omega, rfl⟩) hcov
  rw [hl]
  rcases hr with hr | ⟨ha, hr⟩
  · exact handleAll_total hn h hc hr (fun _ _ _ => rfl) hy
  · refine handleAll_total hn h hc hr (fun x hx hxr => ?_) hy
    rw [rxBundle_eq] at hl
    obtain ⟨j, hj, hj'⟩ := rxLoop_response _ d (d.length + 1) 0 l .first (Nat.zero_le _) (by simpa using hl) x hx
    rw [hj', C33_response_types] at hxr
    exact absurd hxr (ha j hj)

/-- One step. -/
theorem step_total {ep : Ep} {op : Op} (hn : InRange (.nodeId nid)) (h : Both [] [] none none ep) (hc : Calm own nid ep) (hb : ep.busy = [])
    (ho : op.Tame own nid) : ∃ ep', op.step ep = .ok ep' ∧ Calm own nid ep' := by
  cases op with
  | app a =>
    obtain ⟨ep', hx⟩ := run_total hn a ho _ _ _ _ h hc (by rw [hb]; intro _ i hi; cases hi)
    exact ⟨ep', hx, (run_calms a ho _ _ hc hx).1⟩
  | rx remote d rs => exact rxDatagram_total hn h hc ho.1 ho.2.1 ho.2.2 hb
  | advance ms => exact ⟨_, rfl, hc.same [] rfl (by simp) rfl rfl rfl rfl rfl rfl⟩
  | reqTimer id io f =>
    obtain ⟨ep', hx⟩ := reqTimer_total (id := id) (io := io) hn h hc ho
    exact ⟨ep', hx, hc.reqTimer ho hx⟩
  | respTimer id =>
    obtain ⟨ep', hx⟩ := respTimer_total (id := id) h.use hc
    exact ⟨ep', hx, hc.respTimer hx⟩
  | peerTimer fi io =>
    obtain ⟨ep', hx⟩ := peerTimer_total (fi := fi) (io := io) hn h hc
    exact ⟨ep', hx, hc.peerTimer hx⟩

end
end Verif
