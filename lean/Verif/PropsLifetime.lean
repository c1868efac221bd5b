/-
C91: osmo_pfcp_endpoint_free().
-/
import Verif.SpecLifetime
import Verif.PropsClosed
import Verif.PropsSafe

namespace Verif
open Spec

/-- No timer of a CP peer is running. -/
def NoRetry (ep : Ep) : Prop := ∀ fi p, ep.peer? fi = some p → p.timer = none

theorem peer?_newPeer (ep : Ep) (fi remote) {f p} (h : (ep.newPeer fi remote).peer? f = some p) :
    ep.peer? f = some p ∨ p = { fi, remote } := by
  unfold Ep.newPeer at h
  split at h
  · exact .inl h
  · simp only [Ep.peer?, List.find?_cons] at h
    split at h
    · cases h; exact .inr rfl
    · exact .inl h

theorem mem_of_setPeer {ps : List Peer} {q : Peer} {f p} (h : (Verif.setPeer ps q).find? (fun x => x.fi = f) = some p) :
    p = q ∨ ps.find? (fun x => x.fi = f) = some p := by
  induction ps with
  | nil => cases h
  | cons x xs ih =>
    simp only [setPeer, List.map_cons, List.find?_cons] at h ⊢
    by_cases hx : x.fi = q.fi
    · rw [if_pos hx] at h
      by_cases hf : x.fi = f
      · simp only [← hx, hf, decide_true] at h
        cases h; exact .inl rfl
      · rw [show decide (q.fi = f) = false by simp [← hx, hf]] at h
        simp only [hf, decide_false]
        exact ih h
    · rw [if_neg hx] at h
      by_cases hf : x.fi = f
      · simp only [hf, decide_true] at h ⊢
        exact .inr h
      · simp only [hf, decide_false] at h ⊢
        exact ih h

theorem NoRetry.newPeer {ep : Ep} (h : NoRetry ep) (fi remote) : NoRetry (ep.newPeer fi remote) := by
  intro f p hp
  rcases peer?_newPeer ep fi remote hp with hp | rfl
  · exact h f p hp
  · rfl

theorem NoRetry.setAssocCb {ep : Ep} (h : NoRetry ep) (fi cb) : NoRetry (ep.setAssocCb fi cb) := by
  unfold Ep.setAssocCb
  split
  · exact h
  · rename_i q hq
    intro f p hp
    rcases mem_of_setPeer (show (setPeer ep.peers { q with hasCb := cb }).find? (fun x => x.fi = f) = some p from hp) with rfl | hp
    · exact h fi q hq
    · exact h f p hp

theorem runNull_total : ∀ a, LeavesAlone a → ∀ ep, NoRetry ep → ∃ ep', App.runNull a ep = .ok ep' ∧ NoRetry ep' := by
  intro a
  induction a with
  | done => exact fun _ ep h => ⟨ep, rfl, h⟩
  | setTimers n1 t1 keepResp rest ih => exact fun hl ep h => ih hl _ h
  | setT26 t26 rest ih => exact fun hl ep h => ih hl _ h
  | newPeer fi remote rest ih => exact fun hl ep h => ih hl _ (h.newPeer fi remote)
  | setAssocCb fi cb rest ih => exact fun hl ep h => ih hl _ (h.setAssocCb fi cb)
  | _ => exact fun hl => hl.elim

theorem runNull_log : ∀ a ep ep', App.runNull a ep = .ok ep' →
    ∃ l, ep'.log = l ++ ep.log ∧ ∀ e ∈ l, ByTheApplication e := by
  intro a
  induction a with
  | done => intro ep ep' h; cases h; exact ⟨[], rfl, by simp⟩
  | setTimers n1 t1 keepResp rest ih =>
    intro ep ep' h
    obtain ⟨l, e, hl⟩ := ih _ _ h
    refine ⟨l ++ [.config n1 t1 keepResp], by rw [e, List.append_assoc]; rfl, ?_⟩
    intro x hx
    rcases List.mem_append.1 hx with hx | hx
    · exact hl x hx
    · cases List.mem_singleton.1 hx; trivial
  | setT26 t26 rest ih =>
    intro ep ep' h
    obtain ⟨l, e, hl⟩ := ih _ _ h
    refine ⟨l ++ [.configT26 t26], by rw [e, List.append_assoc]; rfl, ?_⟩
    intro x hx
    rcases List.mem_append.1 hx with hx | hx
    · exact hl x hx
    · cases List.mem_singleton.1 hx; trivial
  | newPeer fi remote rest ih =>
    intro ep ep' h
    obtain ⟨l, e, hl⟩ := ih _ _ h
    refine ⟨l, ?_, hl⟩
    rw [e]; unfold Ep.newPeer; split <;> rfl
  | setAssocCb fi cb rest ih =>
    intro ep ep' h
    obtain ⟨l, e, hl⟩ := ih _ _ h
    rw [e]
    unfold Ep.setAssocCb
    split
    · exact ⟨l, rfl, hl⟩
    · refine ⟨l ++ [.peer fi (.cbSet cb)], by rw [List.append_assoc]; rfl, ?_⟩
      intro x hx
      rcases List.mem_append.1 hx with hx | hx
      · exact hl x hx
      · cases List.mem_singleton.1 hx; trivial
  | associate fi io rest ih =>
    intro ep ep' h
    simp only [App.runNull] at h
    split at h
    · exact ih _ _ h
    · split at h
      · cases h
      · exact ih _ _ h
  | _ => intros; rename_i h; cases h

theorem stepNull_log {o : Op} {ep ep'} (h : o.stepNull ep = .ok ep') :
    ∃ l, ep'.log = l ++ ep.log ∧ ∀ e ∈ l, ByTheApplication e := by
  cases o with
  | app a => exact runNull_log a ep ep' h
  | peerTimer fi io =>
    refine ⟨[], ?_, by simp⟩
    simp only [Op.stepNull, Ep.peerTimerNull] at h
    split at h
    · cases h; rfl
    split at h
    · cases h; rfl
    split at h
    · cases h
    · cases h; rfl
  | _ => cases h; exact ⟨[], rfl, by simp⟩

theorem setPeer_state {ps : List Peer} {q p : Peer} (hp : ps.find? (fun x => x.fi = q.fi) = some p) (hs : q.state = p.state) (f) :
    ((Verif.setPeer ps q).find? fun x => x.fi = f).map (·.state) = (ps.find? fun x => x.fi = f).map (·.state) := by
  by_cases hf : f = q.fi
  · subst hf
    rw [find_setPeer, if_pos rfl, hp]
    simp [hs]
  · rw [find_setPeer, if_neg hf]

theorem runNull_exact : ∀ a ep (ps : Nat → Option PState), (∀ fi, (ep.peer? fi).map (·.state) = ps fi) →
    (UsesIt ps a → App.runNull a ep = .ub) ∧ (¬ UsesIt ps a → ∃ ep', App.runNull a ep = .ok ep') := by
  intro a
  induction a with
  | done => exact fun ep ps _ => ⟨False.elim, fun _ => ⟨ep, rfl⟩⟩
  | setTimers n1 t1 keepResp rest ih => exact fun ep ps h => ih (Ep.note { ep with n1, t1, keepResp } _) ps h
  | setT26 t26 rest ih => exact fun ep ps h => ih (Ep.note { ep with t26 } _) ps h
  | newPeer fi remote rest ih =>
    intro ep ps h
    refine ih (ep.newPeer fi remote) _ fun f => ?_
    unfold Ep.newPeer
    by_cases hf : f = fi
    · subst hf
      cases hp : ep.peer? f with
      | some p =>
        have := h f
        rw [hp] at this
        rw [← this]
        simp [hp]
      | none =>
        have := h f
        rw [hp] at this
        rw [← this]
        simp [Ep.peer?]
    · rw [if_neg (by simp [hf]), ← h f]
      split
      · rfl
      · simp only [Ep.peer?, List.find?_cons]
        rw [decide_eq_false (fun e => hf e.symm)]
  | setAssocCb fi cb rest ih =>
    intro ep ps h
    refine ih (ep.setAssocCb fi cb) ps fun f => ?_
    unfold Ep.setAssocCb
    split
    · exact h f
    · rename_i q hq
      rw [← h f]
      have hi : q.fi = fi := by simpa using List.find?_some hq
      exact setPeer_state (q := { q with hasCb := cb }) (p := q) (by rw [← hi] at hq; exact hq) rfl f
  | associate fi io rest ih =>
    intro ep ps h
    have hf := h fi
    unfold UsesIt App.runNull
    rw [← hf]
    cases hp : ep.peer? fi with
    | none =>
      simp only [Option.map_none]
      have := ih ep ps h
      exact ⟨fun hx => this.1 (by simpa using hx), fun hx => this.2 (by simpa using hx)⟩
    | some p =>
      simp only [Option.map_some, Option.some.injEq]
      have := ih ep ps h
      by_cases hs : p.state = .disabled ∨ p.state = .waitRetry
      · rw [if_pos hs]
        exact ⟨fun _ => rfl, fun hx => absurd (by rcases hs with h | h <;> simp [h]) hx⟩
      · rw [if_neg hs]
        rw [not_or] at hs
        exact ⟨fun hx => this.1 (by simpa [hs.1, hs.2] using hx), fun hx => this.2 (by simpa [hs.1, hs.2] using hx)⟩
  | _ => exact fun ep ps _ => ⟨fun _ => rfl, fun hx => absurd trivial hx⟩

namespace Props

/-- C91: osmo_pfcp_endpoint_free() between callbacks always returns, and sets the pointer to NULL.  Each message that the
endpoint waited for a response to, or kept, is freed, exactly once; no message is waited for or kept anymore.  Nothing else
happens: no octets are sent, no callback is called. -/
theorem C91_free {ep : Ep} (h : Reached ep) :
    ∃ ep', Handle.free { ep } = .ok { ep := ep', null := true } ∧
      (∀ id, ep.pending id ∨ ep.keeps id → frees id ep'.log = 1) ∧
      (∀ id, ¬ ep'.pending id ∧ ¬ ep'.keeps id) ∧
      ∃ l, ep'.log = l ++ ep.log ∧ ∀ e ∈ l, Removal e := by
  obtain ⟨ep', hc, hb, -, hf⟩ := C53_close h
  obtain ⟨q1, q2⟩ := close_queues hc
  refine ⟨ep', ?_, fun id hq => (hf id hq).1, ?_, ?_⟩
  · show (ep.close.bind fun ep => Res.ok _) = _
    rw [hc]; rfl
  · intro id
    constructor
    · rintro ⟨e, he, -⟩; rw [q1] at he; cases he
    · rintro ⟨e, he, -⟩; rw [q2] at he; cases he
  · unfold Ep.close at hc
    split at hc
    · cases hc
    obtain ⟨ep2, h3, h4⟩ := Res.bind_eq_ok hc
    cases h4
    obtain ⟨rfl, -⟩ := releaseUses_ok h3
    refine ⟨_, rfl, ?_⟩
    intro e he
    obtain ⟨l, hl, hm⟩ := List.mem_flatten.1 (List.mem_reverse.1 he)
    obtain ⟨q, -, rfl⟩ := List.mem_map.1 hl
    simp at hm
    rcases hm with rfl | rfl <;> trivial

/-- C91: so every message that was ever passed to osmo_pfcp_endpoint_tx() is freed then, exactly once, unless it was sent
while N1 or T1 was 0 (C58). -/
theorem C91_nothing_left {ep ep' : Ep} (h : Reached ep) (hf : Handle.free { ep } = .ok { ep := ep', null := true })
    {id n1 t1 m} (hp : Event.passed id n1 t1 m ∈ ep.log) (hn : n1 ≠ 0) (ht : t1 ≠ 0) : frees id ep'.log = 1 := by
  obtain ⟨ep1, h1, h2⟩ := Res.bind_eq_ok (show (ep.close.bind fun ep => Res.ok (Handle.mk ep true)) = _ from hf)
  cases h2
  have hr : Reached ep' := .op (.app (.close .done)) h (by
    show ep.close.bind _ = _
    rw [h1]; rfl)
  obtain ⟨q1, q2⟩ := close_queues h1
  have hp' : Event.passed id n1 t1 m ∈ ep'.log := by
    unfold Ep.close at h1
    split at h1
    · cases h1
    obtain ⟨ep2, h3, h4⟩ := Res.bind_eq_ok h1
    cases h4
    obtain ⟨rfl, -⟩ := releaseUses_ok h3
    exact List.mem_append_right _ hp
  rcases C58_exactly_once_partial hr hp' hn ht with ⟨hq, -⟩ | ⟨-, hq⟩
  · exfalso
    rcases hq with ⟨e, he, -⟩ | ⟨e, he, -⟩
    · rw [q1] at he; cases he
    · rw [q2] at he; cases he
  · exact hq

/-- C91: a second osmo_pfcp_endpoint_free() with the same pointer does nothing. -/
theorem C91_twice {h h' : Handle} (hf : h.free = .ok h') : h'.null = true ∧ h'.free = .ok h' := by
  have hn : h'.null = true := by
    unfold Handle.free at hf
    split at hf
    · rename_i hn; cases hf; exact hn
    · obtain ⟨ep, -, h2⟩ := Res.bind_eq_ok hf
      cases h2; rfl
  exact ⟨hn, if_pos hn⟩

/-- C91: from then on the pointer is NULL and the endpoint is silent: whatever happens, nothing is seen but what the
application does itself: nothing is sent or freed, no callback of the application is called, no CP peer changes its
state. -/
theorem C91_silent : ∀ (ops : List LifeOp) {h h' : Handle}, h.null = true → lifeExec ops h = .ok h' →
    h'.null = true ∧ ∃ l, h'.ep.log = l ++ h.ep.log ∧ ∀ e ∈ l, ByTheApplication e
  | [], h, h', hn, hx => by cases hx; exact ⟨hn, [], rfl, by simp⟩
  | .free :: ops, h, h', hn, hx => by
    obtain ⟨h1, e1, e2⟩ := Res.bind_eq_ok hx
    rw [show LifeOp.step .free h = .ok h from if_pos hn] at e1
    cases e1
    exact C91_silent ops hn e2
  | .rx remote d fs :: ops, h, h', hn, hx => by
    obtain ⟨h1, e1, e2⟩ := Res.bind_eq_ok hx
    rw [show LifeOp.step (.rx remote d fs) h = .ok h from if_pos (.inl hn)] at e1
    cases e1
    exact C91_silent ops hn e2
  | .op o :: ops, h, h', hn, hx => by
    obtain ⟨h1, e1, e2⟩ := Res.bind_eq_ok hx
    rw [LifeOp.step, if_pos hn] at e1
    obtain ⟨ep1, e3, e4⟩ := Res.bind_eq_ok e1
    cases e4
    obtain ⟨l1, k1, k2⟩ := stepNull_log e3
    obtain ⟨hn', l2, k3, k4⟩ := C91_silent ops (h := { h with ep := ep1 }) hn e2
    refine ⟨hn', l2 ++ l1, by rw [k3, k1, List.append_assoc], ?_⟩
    intro e he
    rcases List.mem_append.1 he with he | he
    · exact k4 e he
    · exact k2 e he

theorem lifeExec_total : ∀ (ops : List LifeOp) (h : Handle), h.null = true → NoRetry h.ep →
    (∀ o ∈ ops, Unused o) → ∃ h', lifeExec ops h = .ok h'
  | [], h, _, _, _ => ⟨h, rfl⟩
  | .free :: ops, h, hn, hr, hu => by
    obtain ⟨h', e⟩ := lifeExec_total ops h hn hr fun o ho => hu o (.tail _ ho)
    refine ⟨h', ?_⟩
    rw [lifeExec, show LifeOp.step .free h = .ok h from if_pos hn]
    exact e
  | .rx remote d fs :: ops, h, hn, hr, hu => by
    obtain ⟨h', e⟩ := lifeExec_total ops h hn hr fun o ho => hu o (.tail _ ho)
    refine ⟨h', ?_⟩
    rw [lifeExec, show LifeOp.step (.rx remote d fs) h = .ok h from if_pos (.inl hn)]
    exact e
  | .op o :: ops, h, hn, hr, hu => by
    have key : ∃ ep', o.stepNull h.ep = .ok ep' ∧ NoRetry ep' := by
      cases o with
      | app a => exact runNull_total a (hu _ (.head _)) _ hr
      | rx => exact ⟨_, rfl, hr⟩
      | advance ms => exact ⟨_, rfl, hr⟩
      | reqTimer => exact ⟨_, rfl, hr⟩
      | respTimer => exact ⟨_, rfl, hr⟩
      | peerTimer fi io =>
        refine ⟨h.ep, ?_, hr⟩
        simp only [Op.stepNull, Ep.peerTimerNull]
        cases hp : h.ep.peer? fi with
        | none => rfl
        | some p =>
          dsimp only
          rw [if_pos (by rw [hr fi p hp]; simp)]
    obtain ⟨ep', e1, e2⟩ := key
    obtain ⟨h', e⟩ := lifeExec_total ops { h with ep := ep' } hn e2 fun o ho => hu o (.tail _ ho)
    refine ⟨h', ?_⟩
    rw [lifeExec, LifeOp.step, if_pos hn, e1]
    exact e

/-- C91: what the application does then crashes exactly if it uses the endpoint, itself or by a CP peer. -/
theorem C91_use_exactly {h : Handle} (hn : h.null = true) (a : App) :
    ((∃ h', LifeOp.step (.op (.app a)) h = .ok h') ↔ ¬ UsesIt (fun fi => (h.ep.peer? fi).map (·.state)) a) ∧
      (UsesIt (fun fi => (h.ep.peer? fi).map (·.state)) a → LifeOp.step (.op (.app a)) h = .ub) := by
  obtain ⟨h1, h2⟩ := runNull_exact a h.ep _ fun _ => rfl
  have e : LifeOp.step (.op (.app a)) h = (a.runNull h.ep).bind fun ep => .ok { h with ep } := by
    rw [LifeOp.step, if_pos hn]; rfl
  rw [e]
  refine ⟨⟨?_, ?_⟩, ?_⟩
  · rintro ⟨h', hx⟩ hu
    rw [h1 hu] at hx
    cases hx
  · intro hu
    obtain ⟨ep', hx⟩ := h2 hu
    exact ⟨{ h with ep := ep' }, by rw [hx]; rfl⟩
  · intro hu
    rw [h1 hu]; rfl

/-- C91: exactly when no CP peer is waiting to retry its association, it is safe to free the endpoint: whatever happens
later does not crash, if the application does not use the endpoint anymore.  Otherwise there is a future without any call
by the application in which freed memory is accessed. -/
theorem C91_safe_iff {ep ep' : Ep} (h : Reached ep) (hf : Handle.free { ep } = .ok { ep := ep', null := true }) :
    (∀ ops, (∀ o ∈ ops, Unused o) → ∃ h', lifeExec (.free :: ops) { ep } = .ok h') ↔
      ∀ fi p, ep.peer? fi = some p → p.timer = none := by
  obtain ⟨ep1, h1, h2⟩ := Res.bind_eq_ok (show (ep.close.bind fun ep => Res.ok (Handle.mk ep true)) = _ from hf)
  cases h2
  have hps : ep'.peers = ep.peers := by
    unfold Ep.close at h1
    split at h1
    · cases h1
    obtain ⟨ep2, h3, h4⟩ := Res.bind_eq_ok h1
    cases h4
    obtain ⟨rfl, -⟩ := releaseUses_ok h3
    rfl
  have hpp : ∀ fi, ep'.peer? fi = ep.peer? fi := fun fi => by unfold Ep.peer?; rw [hps]
  constructor
  · intro hall fi p hp
    cases ht : p.timer with
    | none => rfl
    | some d =>
      exfalso
      obtain ⟨h', hx⟩ := hall [.op (.advance d), .op (.peerTimer fi true)] (by simp [Unused])
      have hs := h.both.peer.timer fi p hp (by rw [ht]; rfl)
      rw [lifeExec, show LifeOp.step .free { ep } = _ from hf] at hx
      have : (Op.peerTimer fi true).stepNull { ep' with now := ep'.now + d } = .ub := by
        show Ep.peerTimerNull _ fi = _
        unfold Ep.peerTimerNull
        rw [show Ep.peer? { ep' with now := ep'.now + d } fi = some p from (hpp fi).trans hp]
        dsimp only
        rw [if_neg (by rw [ht]; simp), if_pos hs]
      simp only [Res.bind, lifeExec, LifeOp.step, if_true, Op.stepNull] at hx this
      rw [this] at hx
      cases hx
  · intro hn ops hu
    obtain ⟨h', e⟩ := lifeExec_total ops { ep := ep', null := true } rfl (fun fi p hp => hn fi p ((hpp fi).symm.trans hp)) hu
    refine ⟨h', ?_⟩
    rw [lifeExec, show LifeOp.step .free { ep } = _ from hf]
    exact e

theorem lifeExec_ops : ∀ (ops : List Op) (ep : Ep) {ep' : Ep} (l : List LifeOp), exec ops ep = .ok ep' →
    lifeExec (ops.map LifeOp.op ++ l) { ep } = lifeExec l { ep := ep' }
  | [], ep, ep', l, h => by cases h; rfl
  | o :: ops, ep, ep', l, h => by
    obtain ⟨ep1, h1, h2⟩ := Res.bind_eq_ok h
    have := lifeExec_ops ops ep1 l h2
    rw [List.map_cons, List.cons_append, lifeExec, LifeOp.step, if_neg (by simp), h1]
    exact this

theorem reached_exec : ∀ (ops : List Op) {ep ep' : Ep}, Reached ep → exec ops ep = .ok ep' → Reached ep'
  | [], _, _, hr, h => by cases h; exact hr
  | o :: ops, _, _, hr, h => by
    obtain ⟨ep1, h1, h2⟩ := Res.bind_eq_ok h
    exact reached_exec ops (.op o hr h1) h2

/-- C91: the whole life of an endpoint that is used as C72 says: it is created, used, freed when no CP peer is waiting to
retry, and whatever happens then does not crash. -/
theorem C91_whole_life {own : Nat → Prop} {cfg : EpCfg} {ops : List Op} (hn : InRange (.nodeId cfg.nodeId))
    (hops : ∀ op ∈ ops, op.Tame own cfg.nodeId) (n1 t1 keepResp unixTime now : Nat) :
    ∃ ep, exec ops (Ep.create cfg n1 t1 keepResp unixTime now) = .ok ep ∧
      ((∀ fi p, ep.peer? fi = some p → p.timer = none) → ∀ after, (∀ o ∈ after, Unused o) →
        ∃ h, lifeExec (ops.map LifeOp.op ++ .free :: after) { ep := Ep.create cfg n1 t1 keepResp unixTime now } = .ok h ∧
          h.null = true) := by
  obtain ⟨ep, he⟩ := C72_no_crash hn hops n1 t1 keepResp unixTime now
  refine ⟨ep, he, fun hp after ha => ?_⟩
  have hr := reached_exec ops (.create cfg n1 t1 keepResp unixTime now) he
  obtain ⟨ep', hf, -⟩ := C91_free hr
  obtain ⟨h, hx⟩ := (C91_safe_iff hr hf).2 hp after ha
  refine ⟨h, by rw [lifeExec_ops ops _ _ he]; exact hx, ?_⟩
  rw [lifeExec, show LifeOp.step .free { ep } = _ from hf] at hx
  exact (C91_silent after (h := { ep := ep', null := true }) rfl hx).1

/-! ### Examples -/

/-- What is seen of message 0 (as `obs`), and whether the pointer is NULL. -/
def lifeObs (ops : List LifeOp) :=
  match lifeExec ops { ep := exEp } with
  | .ok h => (obs 0 (.ok h.ep)).map fun o => (o, h.null)
  | _ => none

/-- A request is sent; the endpoint is freed, and with it the request; resp_cb() is not called; the timer, the response
and another call change nothing. -/
example : lifeObs (exSend.map .op ++ [.free] ++ exTimer.map .op ++ exResp.map .op ++ [.free]) =
    some (([(exRemote, exOctets)], [], 1, 1, [], []), true) := by
  set_option maxRecDepth 100000 in rfl

/-- C91: the application uses the endpoint after freeing it: NULL is accessed. -/
theorem C91_use_after_free : lifeExec (exSend.map .op ++ [.free, .op (.app (.tx exReq true .done .done))]) { ep := exEp } = .ub := by
  rfl

/-- C91: it has a CP peer associate (which was not associating yet, or waits to retry): likewise.  Where the CP peer is associated,
nothing is accessed. -/
theorem C91_associate_after_free :
    lifeExec [.op (.app (.newPeer 7 exUpf .done)), .free, .op (.app (.associate 7 true .done))] { ep := exEp } = .ub ∧
    lifeExec (exAssociate.map .op ++ [.op (.rx exUpf exReject []), .free, .op (.app (.associate 7 true .done))]) { ep := exEp } = .ub ∧
    (lifeObs (exAssociate.map .op ++ [.op (.rx exUpf exAccept []), .free, .op (.app (.associate 7 true .done))])).map (·.2) =
      some true := by
  set_option maxRecDepth 100000 in exact ⟨rfl, rfl, rfl⟩

/-- C91: a CP peer is left waiting to retry when the endpoint is freed; it accesses the freed endpoint when T26 expires. -/
theorem C91_retry_crash : lifeExec (exAssociate.map .op ++ [.op (.rx exUpf exReject []), .free, .op (.advance 15000),
    .op (.peerTimer 7 true)]) { ep := exEp } = .ub := by
  set_option maxRecDepth 100000 in rfl

end Props
end Verif
