/-
What is logged when a message is received, and the application sends nothing.
-/
import Verif.SpecEcho
import Verif.EndpointMoves

namespace Verif
open Spec

/-- Events other than a message that is passed on or sent by the application or by a timer. -/
def unsent : Event → Bool
  | .passed .. => false
  | .send .tx .. => false
  | .send .retrans .. => false
  | .send .direct .. => false
  | .send .heartbeatReq .. => false
  | _ => true

/-- Only such events were added. -/
structure Mute (base log : List Event) : Prop where
  ex : ∃ l, log = l ++ base ∧ ∀ e ∈ l, unsent e = true

theorem Mute.refl (l : List Event) : Mute l l := ⟨[], rfl, fun _ h => (List.not_mem_nil h).elim⟩

theorem Mute.cons {b log} (h : Mute b log) {e} (he : unsent e = true) : Mute b (e :: log) := by
  obtain ⟨l, h1, h2⟩ := h.ex
  refine ⟨e :: l, by rw [h1]; rfl, fun x hx => ?_⟩
  rcases List.mem_cons.1 hx with rfl | hx
  · exact he
  · exact h2 x hx

theorem Mute.append {b log} (h : Mute b log) : ∀ {l : List Event}, (∀ e ∈ l, unsent e = true) → Mute b (l ++ log)
  | [], _ => h
  | e :: l, hl => (Mute.append h fun x hx => hl x (.tail _ hx)).cons (hl e (.head _))

def KeepsUnsent (f : Ep → Res Ep) : Prop := ∀ ep ep' b, Mute b ep.log → f ep = .ok ep' → Mute b ep'.log

theorem sendMsg_unsent {b} {ep : Ep} {why id m io r} (hw : (∃ k, why = .heartbeatReply k) ∨ ∃ k, why = .cachedReply k)
    (h : ep.sendMsg why id m io = .ok r) (hm : Mute b ep.log) : Mute b r.1.log := by
  have hc : ∀ r o ok t, unsent (.send why id r o ok t) = true := by
    rcases hw with ⟨k, rfl⟩ | ⟨k, rfl⟩ <;> exact fun _ _ _ _ => rfl
  rcases sendMsg_ok h with ⟨o, _, _, _, rfl⟩ | ⟨l, e, enc, hl, _, rfl⟩
  · exact hm.cons (hc ..)
  · rcases hl with ⟨rfl, _⟩ | ⟨o, _, rfl⟩
    · exact hm
    · exact hm.cons (hc ..)

theorem close_unsent {b} {ep ep' : Ep} (hm : Mute b ep.log) (h : ep.close = .ok ep') : Mute b ep'.log := by
  unfold Ep.close at h
  split at h
  · cases h
  · obtain ⟨ep1, h1, h2⟩ := Res.bind_eq_ok h
    cases h2
    refine Mute.append ?_ ?_
    · rw [releaseUses_log h1]; exact hm
    · intro e he
      simp only [List.mem_reverse, List.mem_flatten, List.mem_map] at he
      obtain ⟨l, ⟨x, _, rfl⟩, he⟩ := he
      simp only [List.mem_cons, List.not_mem_nil, or_false] at he
      rcases he with rfl | rfl <;> rfl

theorem run_unsent (a : App) (ha : a.silent = true) : KeepsUnsent a.run := by
  induction a with
  | done => intro ep ep' b hm h; cases h; exact hm
  | tx m io onFail rest ih1 ih2 => cases ha
  | txData m io rest ih => cases ha
  | heartbeat r io rest ih => cases ha
  | associate f io rest ih => cases ha
  | invalidate f rest ih => intro ep ep' b hm h; exact ih ha _ _ b (Mute.cons (e := .invalidated f) hm rfl) h
  | setSeq s rest ih => intro ep ep' b hm h; exact ih ha { ep with seq := s, resets := ep.resets + 1 } _ b hm h
  | setTimers n1 t1 kr rest ih =>
    intro ep ep' b hm h
    exact ih ha _ _ b (Mute.cons (e := .config n1 t1 kr) hm rfl) h
  | close rest ih =>
    intro ep ep' b hm h
    obtain ⟨ep1, h1, h⟩ := Res.bind_eq_ok h
    exact ih ha _ _ b (close_unsent hm h1) h
  | bind ok rest ih =>
    intro ep ep' b hm h
    obtain ⟨ep1, h1, h⟩ := Res.bind_eq_ok h
    obtain ⟨ep2, h2, h1⟩ := Res.bind_eq_ok h1
    cases h1
    exact ih ha { ep2 with sock := ep2.cfg.hasRx && ok } _ b (close_unsent hm h2 :) h
  | setT26 t rest ih =>
    intro ep ep' b hm h
    exact ih ha _ _ b (Mute.cons (e := .configT26 t) hm rfl) h
  | newPeer f r rest ih =>
    intro ep ep' b hm h
    refine ih ha _ _ b ?_ h
    unfold Ep.newPeer
    split <;> exact hm
  | setAssocCb f cb rest ih =>
    intro ep ep' b hm h
    refine ih ha _ _ b ?_ h
    unfold Ep.setAssocCb
    split
    · exact hm
    · exact Mute.cons (e := .peer f (.cbSet cb)) hm rfl

theorem peerChg_unsent {ep : Ep} {b f s} (hm : Mute b ep.log) : Mute b (ep.peerChg f s).log := by
  unfold Ep.peerChg
  split
  · exact hm
  · split
    · exact Mute.cons (e := .peer f (.state s)) hm rfl
    · exact hm

theorem assocResp_unsent {ep ep' : Ep} {ctx : Ctx} {resp : Option PMsg} {cb b} (hm : Mute b ep.log)
    (hcb : KeepsUnsent cb) (h : ep.assocResp ctx resp cb = .ok ep') : Mute b ep'.log := by
  unfold Ep.assocResp at h
  split at h
  · cases h
  rename_i f hf
  split at h
  · cases h
  rename_i p hp
  split at h
  · cases h
    exact peerChg_unsent hm
  · split at h
    · cases h
      exact peerChg_unsent hm
    split at h
    · cases h; exact hm
    dsimp only at h
    split at h
    · exact hcb _ _ b (Mute.cons (e := .peer f (.assocCb true)) (peerChg_unsent (s := .associated) (f := f) hm) rfl) h
    · cases h; exact peerChg_unsent hm

theorem queueDel_unsent {b} {ep ep' : Ep} {id} (hm : Mute b ep.log) (h : ep.queueDel id = .ok ep') : Mute b ep'.log := by
  obtain ⟨ep1, h1, h2⟩ := Res.bind_eq_ok h
  cases h2
  refine Mute.cons (e := .freed id) ?_ rfl
  rw [releaseUses_log h1]
  exact hm

theorem setCtx_unsent {ep ep' : Ep} {k req r b} (hr : r.silent = true) (hm : Mute b ep.log) (hx : ep.setCtx k req r = .ok ep') :
    Mute b ep'.log := by
  simp only [React.silent, Bool.and_eq_true] at hr
  unfold Ep.setCtx at hx
  split at hx
  · exact run_unsent _ hr.1.1 _ _ b (Mute.cons (e := .setCtx k req) hm rfl) hx
  · cases hx; exact hm

theorem dispatch_unsent {ep ep' : Ep} {k req r b} (hr : r.silent = true) (hm : Mute b ep.log) (hx : ep.dispatch k req r = .ok ep') :
    Mute b ep'.log := by
  simp only [React.silent, Bool.and_eq_true] at hr
  exact run_unsent _ hr.2 _ _ b (Mute.cons (e := .dispatch k req) hm rfl) hx

theorem handleDuplicate_unsent {ep ep' : Ep} {k prev r b} (hr : r.silent = true) (hm : Mute b ep.log)
    (hx : ep.handleDuplicate k prev r = .ok ep') : Mute b ep'.log := by
  obtain ⟨ep1, h1, hx⟩ := Res.bind_eq_ok hx
  obtain ⟨ep2, h2, h1⟩ := Res.bind_eq_ok h1
  cases h1
  have := setCtx_unsent (ep := { ep with busy := prev.id :: ep.busy }) hr hm h2
  dsimp only at hx
  split at hx
  · cases hx
  · obtain ⟨x, h3, hx⟩ := Res.bind_eq_ok hx
    cases hx
    exact sendMsg_unsent (.inr ⟨k, rfl⟩) h3 this

theorem handleResponse_unsent {ep ep' : Ep} {k m prev r b} (hr : r.silent = true) (hm : Mute b ep.log)
    (hx : ep.handleResponse k m prev r = .ok ep') : Mute b ep'.log := by
  obtain ⟨ep1, h1, hx⟩ := Res.bind_eq_ok hx
  obtain ⟨ep2, h2, he1⟩ := Res.bind_eq_ok h1
  cases he1
  dsimp only at hx
  split at hx
  rotate_left
  · cases hx
  refine queueDel_unsent (ep := { ep2 with busy := ep.busy }) ?_ hx
  obtain ⟨ep3, h3, h2⟩ := Res.bind_eq_ok h2
  have hm3 := setCtx_unsent (ep := { ep with busy := prev.id :: ep.busy }) hr hm h3
  have hrr : r.onResp.silent = true := by
    simp only [React.silent, Bool.and_eq_true] at hr
    exact hr.1.2
  split at h2
  · obtain ⟨⟨ep4, rc⟩, h4, h2⟩ := Res.bind_eq_ok h2
    dsimp only at h2
    have hm4 : Mute b ep4.log := by
      unfold Ep.respCall at h4
      split at h4
      · split at h4
        · cases h4
        obtain ⟨ep5, h5, h4⟩ := Res.bind_eq_ok h4
        cases h4
        exact assocResp_unsent (Mute.cons hm3 (e := .respCb prev.id (some k) ep3.now) rfl) (run_unsent _ hrr) h5
      · obtain ⟨ep5, h5, h4⟩ := Res.bind_eq_ok h4
        cases h4
        exact run_unsent _ hrr _ _ b (Mute.cons hm3 (e := .respCb prev.id (some k) ep3.now) rfl) h5
    split at h2
    · cases h2; exact hm4
    · exact (dispatch_unsent hr hm4 h2 :)
  · exact (dispatch_unsent hr hm3 h2 :)

theorem handleRx_unsent {ep ep' : Ep} {m r b} (hr : r.silent = true) (hm : Mute b ep.log) (hx : ep.handleRx m r = .ok ep') :
    Mute b ep'.log := by
  unfold Ep.handleRx at hx
  obtain ⟨ep1, h1, hx⟩ := Res.bind_eq_ok hx
  obtain ⟨ep2, h2, hx⟩ := Res.bind_eq_ok hx
  rw [releaseUses_log hx]
  have hm0 : Mute b ({ ep with nextId := ep.nextId + 1 }.note (.received ep.nextId m)).log := Mute.cons hm rfl
  have hb1 : Mute b ep1.log := by
    unfold Ep.heartbeatReply at h1
    split at h1
    · obtain ⟨⟨ep3, m3, rc⟩, h3, h1⟩ := Res.bind_eq_ok h1
      cases h1
      exact sendMsg_unsent (.inl ⟨_, rfl⟩) h3 hm0
    · cases h1; exact hm0
  unfold Ep.handleMsg at h2
  split at h2
  · by_cases hrm : m.isResponse = true
    · rw [if_pos hrm] at h2
      exact handleResponse_unsent hr hb1 h2
    · rw [if_neg hrm] at h2
      exact handleDuplicate_unsent hr hb1 h2
  · obtain ⟨ep3, h3, h2⟩ := Res.bind_eq_ok h2
    exact dispatch_unsent hr (setCtx_unsent hr hb1 h3) h2

end Verif
