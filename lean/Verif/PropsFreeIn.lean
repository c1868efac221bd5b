/-
C96: freeing the endpoint inside rx_msg_cb().
-/
import Verif.PropsLifetime
import Verif.PropsCloseIn

namespace Verif
open Spec

theorem andThen_run : ∀ (a b : App) (ep : Ep), (a.andThen b).run ep = (a.run ep).bind b.run := by
  intro a b
  have assoc : ∀ {x : Res Ep} {f g : Ep → Res Ep}, (x.bind f).bind g = x.bind fun y => (f y).bind g := by
    intro x f g; cases x <;> rfl
  induction a with
  | done => intro ep; rfl
  | tx m io f r _ ih =>
    intro ep
    simp only [App.andThen, App.run]
    split
    · rfl
    · rw [assoc]; congr 1; funext y; exact ih y
  | txData m io r ih => intro ep; simp only [App.andThen, App.run]; rw [assoc]; congr 1; funext y; exact ih y
  | heartbeat remote io r ih => intro ep; simp only [App.andThen, App.run]; rw [assoc]; congr 1; funext y; exact ih y
  | close r ih => intro ep; simp only [App.andThen, App.run]; rw [assoc]; congr 1; funext y; exact ih y
  | bind ok r ih => intro ep; simp only [App.andThen, App.run]; rw [assoc]; congr 1; funext y; exact ih y
  | associate fi io r ih => intro ep; simp only [App.andThen, App.run]; rw [assoc]; congr 1; funext y; exact ih y
  | _ => intro ep; rename_i ih; exact ih _

theorem closes_andThen : ∀ a : App, (a.andThen (.close .done)).Closes := by
  intro a
  induction a with
  | tx _ _ _ _ _ ih => exact ih
  | done => trivial
  | close => trivial
  | bind => trivial
  | _ => rename_i ih; exact ih

/-- Where nothing is freed, nothing is new. -/
theorem handleRxF_same (ep : Ep) (m : PMsg) (f : FReact) (hf : f.free = false) :
    ep.handleRxF m f = (ep.handleRx m f.r).bind fun ep => .ok { ep } := by
  have assoc : ∀ {α β γ : Type} {x : Res α} {f : α → Res β} {g : β → Res γ}, (x.bind f).bind g = x.bind fun y => (f y).bind g := by
    intro α β γ x f g; cases x <;> rfl
  unfold Ep.handleRxF Ep.handleRx Ep.handleMsgF
  dsimp only
  rw [assoc]
  congr 1
  funext y
  rw [if_pos (by simp [hf]), assoc, assoc]
  congr 1

theorem leavesAlone_not_uses : ∀ a : App, LeavesAlone a → ∀ ps, ¬ UsesIt ps a := by
  intro a
  induction a with
  | done => exact fun _ _ h => h
  | setTimers _ _ _ _ ih => exact fun h ps => ih h ps
  | setT26 _ _ ih => exact fun h ps => ih h ps
  | newPeer _ _ _ ih => exact fun h ps => ih h _
  | setAssocCb _ _ _ ih => exact fun h ps => ih h ps
  | _ => exact fun h => h.elim

theorem runNull_same : ∀ (a : App) (ep ep' : Ep), a.runNull ep = .ok ep' →
    ep'.use = ep.use ∧ ep'.cfg = ep.cfg ∧ ep'.reqs = ep.reqs ∧ ep'.resps = ep.resps ∧ ep'.sock = ep.sock := by
  intro a
  induction a with
  | done => intro ep ep' h; cases h; exact ⟨rfl, rfl, rfl, rfl, rfl⟩
  | setTimers n1 t1 keepResp rest ih => intro ep ep' h; exact ih (Ep.note { ep with n1, t1, keepResp } _) ep' h
  | setT26 t26 rest ih => intro ep ep' h; exact ih (Ep.note { ep with t26 } _) ep' h
  | newPeer fi remote rest ih =>
    intro ep ep' h
    have := ih _ ep' h
    unfold Ep.newPeer at this
    split at this <;> exact this
  | setAssocCb fi cb rest ih =>
    intro ep ep' h
    have := ih _ ep' h
    unfold Ep.setAssocCb at this
    split at this <;> exact this
  | associate fi io rest ih =>
    intro ep ep' h
    simp only [App.runNull] at h
    split at h
    · exact ih _ _ h
    · split at h
      · cases h
      · exact ih _ _ h
  | _ => intros; rename_i h; cases h

/-- If closing the endpoint in rx_msg_cb() returns, so does freeing it. -/
theorem handleRxF_of_close {ep ep' : Ep} {m : PMsg} {f : FReact} (hf : f.free = true)
    (hq : ∀ e ∈ if m.isResponse then ep.reqs else ep.resps, e.m.h.seq ≠ m.h.seq) (ha : LeavesAlone f.after)
    (h : ep.handleRx m { f.r with onRx := f.r.onRx.andThen (.close .done) } = .ok ep') :
    ∃ h', ep.handleRxF m f = .ok h' ∧ h'.null = true ∧ h'.ep.reqs = [] ∧ h'.ep.resps = [] ∧ h'.ep.sock = false ∧
      ∃ l, h'.ep.log = l ++ ep'.log ∧ ∀ e ∈ l, ByTheApplication e := by
  obtain ⟨ep1, h1, h⟩ := Res.bind_eq_ok h
  obtain ⟨ep2, h2, h3⟩ := Res.bind_eq_ok h
  dsimp only at h1 h3
  obtain ⟨q1, q2, -⟩ := heartbeatReply_queues h1
  have hn : queueFind (if m.isResponse = true then ep1.reqs else ep1.resps) m = none := by
    cases hf : queueFind (if m.isResponse = true then ep1.reqs else ep1.resps) m with
    | none => rfl
    | some e =>
      obtain ⟨f1, f2⟩ := queueFind_some hf
      rw [q1, q2] at f1
      exact absurd f2 (hq e f1)
  unfold Ep.handleMsg at h2
  rw [hn] at h2
  obtain ⟨ep3, h4, h5⟩ := Res.bind_eq_ok h2
  unfold Ep.dispatch at h5
  dsimp only at h5
  rw [andThen_run] at h5
  obtain ⟨ep4, h6, h7⟩ := Res.bind_eq_ok h5
  obtain ⟨ep5, h8, h9⟩ := Res.bind_eq_ok (show (ep4.close.bind App.done.run) = _ from h7)
  cases h9
  obtain ⟨ep6, h10⟩ := (runNull_exact f.after ep2 _ fun _ => rfl).2 (leavesAlone_not_uses _ ha _)
  obtain ⟨u1, u2, u3, u4, u5⟩ := runNull_same _ _ _ h10
  obtain ⟨l, hl, hb⟩ := runNull_log _ _ _ h10
  have hm : ep1.handleMsgF ep.nextId m f = .ok { ep := ep6, null := true } := by
    unfold Ep.handleMsgF
    rw [if_neg (by simp [hf]), hn]
    dsimp only
    rw [show ep1.setCtx ep.nextId none f.r = .ok ep3 from h4]
    simp only [Res.bind_ok']
    rw [show ep3.dispatch ep.nextId none f.r = .ok ep4 from h6]
    simp only [Res.bind_ok']
    rw [show Handle.free { ep := ep4 } = .ok { ep := ep2, null := true } by
      show (ep4.close.bind fun ep => Res.ok _) = _
      rw [h8]; rfl]
    simp only [Res.bind_ok', h10]
  obtain ⟨e3, hc⟩ := releaseUses_ok h3
  have hr : ep6.rxUses f.r = ep2.rxUses { f.r with onRx := f.r.onRx.andThen (.close .done) } := by
    unfold Ep.rxUses; rw [u2]
  obtain ⟨ep7, h11⟩ := releaseUses_total (us := ep6.rxUses f.r) (ep := ep6) (fun u => by rw [hr, u1]; exact hc u)
  obtain ⟨c1, c2⟩ := close_queues h8
  have c3 : ep2.sock = false := by
    unfold Ep.close at h8
    split at h8
    · cases h8
    obtain ⟨_, _, h8⟩ := Res.bind_eq_ok h8
    cases h8; rfl
  refine ⟨{ ep := ep7, null := true }, ?_, rfl, ?_⟩
  · unfold Ep.handleRxF
    dsimp only
    rw [h1]
    simp only [Res.bind_ok']
    rw [hm]
    simp only [Res.bind_ok']
    rw [h11]
    rfl
  · obtain ⟨e7, -⟩ := releaseUses_ok h11
    rw [e7, e3]
    exact ⟨u3.trans c1, u4.trans c2, u5.trans c3, l, hl, hb⟩

namespace Props

/-- C96: the application may free the endpoint in rx_msg_cb() for a request that was not answered before, and for a response
to no pending request: this returns, and the pointer is NULL then; nothing is kept or waited for, and the socket is closed.
(`f.r.Loose`: what it does before observes the rules; afterwards it leaves the endpoint alone.) -/
theorem C96_unmatched {own : Nat → Prop} {cfg : EpCfg} {ops : List Op} (hn : InRange (.nodeId cfg.nodeId))
    (hops : ∀ op ∈ ops, op.Tame own cfg.nodeId) (n1 t1 keepResp unixTime now : Nat) {ep : Ep}
    (h : exec ops (Ep.create cfg n1 t1 keepResp unixTime now) = .ok ep) {m : PMsg}
    (hm : ∀ e ∈ if m.isResponse then ep.reqs else ep.resps, e.m.h.seq ≠ m.h.seq) {f : FReact} (hf : f.free = true)
    (hr : f.r.Loose own cfg.nodeId) (ha : LeavesAlone f.after) :
    ∃ h', ep.handleRxF m f = .ok h' ∧ h'.null = true ∧ (∀ id, ¬ h'.ep.pending id ∧ ¬ h'.ep.keeps id) ∧ h'.ep.sock = false := by
  have tame : ∀ a : App, a.Tame own cfg.nodeId false → (a.andThen (.close .done)).Tame own cfg.nodeId false := by
    intro a
    induction a with
    | done => exact fun _ => ⟨rfl, trivial⟩
    | tx m io f r _ ih => rintro ⟨a, b, c, d⟩; exact ⟨a, b, c, ih d⟩
    | txData m io r ih => rintro ⟨a, b⟩; exact ⟨a, ih b⟩
    | invalidate fi r ih => rintro ⟨a, b⟩; exact ⟨a, ih b⟩
    | close r ih => rintro ⟨a, b⟩; exact ⟨a, ih b⟩
    | bind ok r ih => rintro ⟨a, b⟩; exact ⟨a, ih b⟩
    | newPeer fi remote r ih => rintro ⟨a, b⟩; exact ⟨a, ih b⟩
    | _ => rename_i ih; exact fun h => ih h
  obtain ⟨ep', h1⟩ := C95_otherwise hn hops n1 t1 keepResp unixTime now h hm
    (r := { f.r with onRx := f.r.onRx.andThen (.close .done) }) ⟨hr.1, tame _ hr.2⟩
  obtain ⟨h', e1, e2, e3, e4, e5, -⟩ := handleRxF_of_close hf hm ha h1
  refine ⟨h', e1, e2, fun id => ⟨?_, ?_⟩, e5⟩
  · rintro ⟨e, he, -⟩; rw [e3] at he; cases he
  · rintro ⟨e, he, -⟩; rw [e4] at he; cases he

/-- C96: freeing it in rx_msg_cb() for the response to a pending request never returns: the library removes the request
that was freed already. -/
theorem C96_response {ep : Ep} (h : Reached ep) {m : PMsg} (hm : m.isResponse = true) {e : QEntry}
    (he : ep.reqs.find? (fun e => e.m.h.seq = m.h.seq) = some e) {f : FReact} (hf : f.free = true)
    (hr : e.m.ctx.respCb = none ∨ ((∃ x, e.m.ctx.respCb = some (.app x)) ∧ f.r.rc = 1)) : ∀ h', ep.handleRxF m f ≠ .ok h' := by
  intro h' hx
  obtain ⟨ep1, h1, hx⟩ := Res.bind_eq_ok hx
  obtain ⟨h2, h3, hx⟩ := Res.bind_eq_ok hx
  obtain ⟨ep2, h4, hx⟩ := Res.bind_eq_ok hx
  cases hx
  obtain ⟨e1, e2, e3, e4, e5⟩ := heartbeatReply_queues h1
  have hq : queueFind (if m.isResponse = true then ep1.reqs else ep1.resps) m = some e := by
    rw [if_pos hm, e1, queueFind_eq]
    · exact he
    · intro e he
      rw [((C53_queues h).1 e he).1, hm]; rfl
  unfold Ep.handleMsgF at h3
  rw [if_neg (by simp [hf]), hq] at h3
  obtain ⟨ep3, h5, h3⟩ := Res.bind_eq_ok h3
  cases h3
  refine C95_response h hm he (r := { f.r with onRx := f.r.onRx.andThen (.close .done) }) (.inr (.inr ⟨hr, closes_andThen _⟩)) ep2 ?_
  unfold Ep.handleRx
  dsimp only
  rw [show Ep.heartbeatReply _ ep.nextId m f.r.io = _ from h1]
  simp only [Res.bind_ok']
  rw [h5]
  exact h4

/-- C96: afterwards, each message of the same datagram that can be decoded makes the library access the freed endpoint; if
there is none, nothing more happens. -/
theorem C96_next {h : Handle} (hn : h.null = true) (remote : Sockaddr) (fs : List FReact) : ∀ l : List Rx,
    ((∀ x ∈ l, x.ies = none) → h.handleAllF remote l fs = .ok h) ∧ ((∃ x ∈ l, x.ies ≠ none) → h.handleAllF remote l fs = .ub)
  | [] => ⟨fun _ => rfl, nofun⟩
  | ⟨d, none⟩ :: l => by
    obtain ⟨h1, h2⟩ := C96_next hn remote fs l
    refine ⟨fun hx => h1 fun x hm => hx x (.tail _ hm), ?_⟩
    rintro ⟨x, hm, hx⟩
    rcases List.mem_cons.1 hm with rfl | hm
    · exact absurd rfl hx
    · exact h2 ⟨x, hm, hx⟩
  | ⟨d, some ies⟩ :: l => ⟨fun hx => absurd (hx _ (.head _)) nofun, fun _ => if_pos hn⟩

/-- C96: so for a datagram that arrives: if rx_msg_cb() frees the endpoint for its first message, the library does not crash
exactly if no other message in the datagram can be decoded.  Then the pointer is NULL (and C91 says what may happen later). -/
theorem C96_datagram {own : Nat → Prop} {cfg : EpCfg} {ops : List Op} (hn : InRange (.nodeId cfg.nodeId))
    (hops : ∀ op ∈ ops, op.Tame own cfg.nodeId) (n1 t1 keepResp unixTime now : Nat) {ep : Ep}
    (h : exec ops (Ep.create cfg n1 t1 keepResp unixTime now) = .ok ep) (hs : ep.sock = true) {remote : Sockaddr} {o : List UInt8}
    (ho : o ≠ []) (hlen : o.length < 2048) {d ies l}
    (hb : rxBundle (o.length + 1) (.received o) (List.replicate (2048 - o.length) 0) = .ok (⟨d, some ies⟩ :: l))
    (hm : ∀ e ∈ if d.isResponse then ep.reqs else ep.resps, e.m.h.seq ≠ d.h.seq) {f : FReact} (hf : f.free = true)
    (hr : f.r.Loose own cfg.nodeId) (ha : LeavesAlone f.after) :
    ((∀ x ∈ l, x.ies = none) → ∃ h', LifeOp.step (.rx remote o [f]) { ep } = .ok h' ∧ h'.null = true) ∧
    ((∃ x ∈ l, x.ies ≠ none) → LifeOp.step (.rx remote o [f]) { ep } = .ub) := by
  obtain ⟨hre, hc⟩ := exec_state hn hops n1 t1 keepResp unixTime now h
  obtain ⟨h', e1, e2, -⟩ := C96_unmatched hn hops n1 t1 keepResp unixTime now h (m := Rx.msg remote d ies) hm hf hr ha
  have key : LifeOp.step (.rx remote o [f]) { ep } = h'.handleAllF remote l [] := by
    show Handle.rxDatagramF _ _ _ _ = _
    unfold Handle.rxDatagramF
    dsimp only
    rw [List.take_of_length_le (by unfold allocSize; omega), if_neg (by simp [hs, ho]), if_neg (by simp [hc.sock hs]),
      show allocSize = 2048 from rfl, hb]
    simp only [Res.bind_ok', Handle.handleAllF]
    rw [if_neg (by simp)]
    show Res.bind (ep.handleRxF (Rx.msg remote d ies) f) _ = _
    rw [e1]
    rfl
  rw [key]
  obtain ⟨k1, k2⟩ := C96_next e2 remote [] l
  exact ⟨fun hx => ⟨h', k1 hx, e2⟩, k2⟩

/-! ### Examples -/

/-- A request is pending; a Session Deletion Request arrives, and rx_msg_cb() frees the endpoint and sets a callback of a
CP peer.  The pending request is freed. -/
example : lifeObs (exSend.map .op ++ [.rx exOther exDelOctets [{ free := true, after := .newPeer 7 exUpf (.setAssocCb 7 true .done) }]] ++
      exTimer.map .op) = some (([(exRemote, exOctets)], [], 1, 1, [], []), true) := by
  set_option maxRecDepth 100000 in rfl

/-- The same, where a second message follows that cannot be decoded (a Session Deletion Request whose header is not
complete). -/
example : lifeObs (exSend.map .op ++ [.rx exOther (exDelOctets ++ [32, 54, 0]) [{ free := true }]]) =
    some (([(exRemote, exOctets)], [], 1, 1, [], []), true) := by
  set_option maxRecDepth 100000 in rfl

/-- The hypotheses of C96_datagram about the datagram: the first message is a request with sequence number 1; the second can
be decoded, or not. -/
example : (match rxBundle 17 (.received (exDelOctets ++ exDelOctets)) (List.replicate 2032 0) with
      | .ok (⟨d, some _⟩ :: l) => d.isResponse == false && d.h.seq == 1 && l.any fun x => x.ies.isSome
      | _ => false) = true ∧
    (match rxBundle 12 (.received (exDelOctets ++ [32, 54, 0])) (List.replicate 2037 0) with
      | .ok (⟨d, some _⟩ :: l) => d.isResponse == false && d.h.seq == 1 && l.all fun x => x.ies.isNone
      | _ => false) = true := by
  decide +kernel

/-- C96: two requests in a datagram: the endpoint is used after it was freed. -/
theorem C96_bundle : lifeExec (exSend.map .op ++ [.rx exOther (exDelOctets ++ exDelOctets) [{ free := true }]]) { ep := exEp } = .ub := by
  set_option maxRecDepth 100000 in rfl

/-- C96: a response to a pending request, whose resp_cb() returns 1. -/
theorem C96_matched : lifeExec (exSend.map .op ++ [.rx exRemote exRespOctets [{ r := { rc := 1 }, free := true }]]) { ep := exEp } = .ub ∧
    lifeObs (exSend.map .op ++ [.rx exRemote exRespOctets [{ r := { rc := 0 }, free := true }]]) =
      some (([(exRemote, exOctets)], [some 1], 1, 0, [], []), false) := by
  set_option maxRecDepth 100000 in exact ⟨rfl, rfl⟩

end Props
end Verif
