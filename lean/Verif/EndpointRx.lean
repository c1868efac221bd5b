/-
What receiving one message does: the events of `handleRx`, with what the application does in between.
-/
import Verif.EndpointTally
import Verif.SpecEndpoint

namespace Verif

/-- What API calls leave as it is, and what they add to the log. -/
structure Api (ep ep' : Ep) : Prop where
  cfg : ep'.cfg = ep.cfg
  now : ep'.now = ep.now
  rts : ep'.rts = ep.rts
  nextId : ep.nextId ≤ ep'.nextId
  log : ∃ l, ep'.log = l ++ ep.log ∧ ∀ e ∈ l, isRx e = false

theorem Api.refl (ep : Ep) : Api ep ep := ⟨rfl, rfl, rfl, Nat.le_refl _, [], rfl, by simp⟩

theorem Api.trans {a b c : Ep} (h : Api a b) (h' : Api b c) : Api a c := by
  obtain ⟨l, hl, hx⟩ := h.log
  obtain ⟨l', hl', hx'⟩ := h'.log
  refine ⟨h'.cfg.trans h.cfg, h'.now.trans h.now, h'.rts.trans h.rts, Nat.le_trans h.nextId h'.nextId, l' ++ l, ?_, ?_⟩
  · rw [hl', hl, List.append_assoc]
  · intro e he
    rcases List.mem_append.mp he with he | he
    · exact hx' e he
    · exact hx e he

/-- A step that only adds events. -/
theorem Api.step {ep ep' : Ep} (l : List Event) (hl : ep'.log = l ++ ep.log) (hx : ∀ e ∈ l, isRx e = false)
    (h1 : ep'.cfg = ep.cfg) (h2 : ep'.now = ep.now) (h3 : ep'.rts = ep.rts) (h4 : ep.nextId ≤ ep'.nextId) : Api ep ep' :=
  ⟨h1, h2, h3, h4, l, hl, hx⟩

/-- What is the same except for the log and `busy`. -/
theorem Api.busy {ep ep' : Ep} {b b'} (h : Api { ep with busy := b } ep') : Api ep { ep' with busy := b' } :=
  ⟨h.cfg, h.now, h.rts, h.nextId, h.log⟩

theorem sendMsg_api {ep : Ep} {why id m io r} (h : ep.sendMsg why id m io = .ok r)
    (hw : why = .tx ∨ why = .direct ∨ why = .retrans ∨ why = .heartbeatReq) : Api ep r.1 := by
  have hx : ∀ r o ok t, isRx (.send why id r o ok t) = false := by
    rcases hw with rfl | rfl | rfl | rfl <;> intros <;> rfl
  rcases sendMsg_ok h with ⟨o, _, _, _, rfl⟩ | ⟨l, e, enc, hl, -, rfl⟩
  · exact .step [_] rfl (by simp [hx]) rfl rfl rfl (Nat.le_refl _)
  · rcases hl with ⟨rfl, _⟩ | ⟨o, _, rfl⟩
    · exact .step [] rfl (by simp) rfl rfl rfl (Nat.le_refl _)
    · exact .step [_] rfl (by simp [hx]) rfl rfl rfl (Nat.le_refl _)

theorem note_api (ep : Ep) (e : Event) (h : isRx e = false) : Api ep (ep.note e) :=
  .step [e] rfl (by simp [h]) rfl rfl rfl (Nat.le_refl _)

theorem using_api {ep ep' : Ep} {id f} (hf : ∀ ep ep', f ep = .ok ep' → Api ep ep') (h : ep.using id f = .ok ep') :
    Api ep ep' := by
  obtain ⟨ep1, h1, h⟩ := Res.bind_eq_ok h
  cases h
  exact (hf _ _ h1).busy

theorem failCb_api {ep ep' : Ep} {id m cb} (hf : ∀ ep ep', cb ep = .ok ep' → Api ep ep')
    (h : ep.failCb id m cb = .ok ep') : Api ep ep' := by
  unfold Ep.failCb at h
  split at h
  · exact (note_api ep _ rfl).trans (using_api hf h)
  · cases h; exact Api.refl _

theorem PeersOnly.api {ep ep' : Ep} (h : PeersOnly ep ep') : Api ep ep' := by
  obtain ⟨_, _, _, rfl⟩ := h
  exact ⟨rfl, rfl, rfl, Nat.le_refl _, [], rfl, by simp⟩

theorem peerChg_api (ep : Ep) (fi s) : Api ep (ep.peerChg fi s) := by
  unfold Ep.peerChg
  split
  · exact .refl _
  · split
    · exact ⟨rfl, rfl, rfl, Nat.le_refl _, [_], rfl, by simp [isRx]⟩
    · exact .refl _

theorem setAssocCb_api (ep : Ep) (fi b) : Api ep (ep.setAssocCb fi b) := by
  unfold Ep.setAssocCb
  split
  · exact .refl _
  · exact ⟨rfl, rfl, rfl, Nat.le_refl _, [_], rfl, by simp [isRx]⟩

theorem tx_api {ep ep' : Ep} {m io cb} (hf : ∀ ep ep', cb ep = .ok ep' → Api ep ep') (h : ep.tx m io cb = .ok ep') :
    Api ep ep' := by
  rw [tx_eq] at h
  obtain ⟨⟨ep1, m1, rc⟩, h1, h⟩ := Res.bind_eq_ok h
  have a0 : Api ep ((ep.begun m).note (.passed ep.nextId ep.n1 ep.t1 (ep.outgoing m))) :=
    .step [.passed ep.nextId ep.n1 ep.t1 (ep.outgoing m)] (by simp [Ep.note]) (by simp [isRx]) (by simp [Ep.note])
      (by simp [Ep.note]) (by simp [Ep.note]) (by simp [Ep.note])
  have a1 := a0.trans (sendMsg_api h1 (.inl rfl))
  refine a1.trans ?_
  cases rc with
  | some e =>
    obtain ⟨ep2, h2, h⟩ := Res.bind_eq_ok h
    obtain ⟨ep3, h3, h⟩ := Res.bind_eq_ok h
    cases h
    exact (failCb_api hf h2).trans ((releaseUses_only h3).api.trans ((note_api _ _ rfl).trans (note_api _ _ rfl)))
  | none =>
    obtain ⟨ep2, h2, h⟩ := Res.bind_eq_ok h
    cases h
    refine Api.trans ?_ (note_api _ _ rfl)
    unfold Ep.queueAdd at h2
    split at h2
    · exact failCb_api hf h2
    · split at h2 <;> cases h2 <;> exact ⟨rfl, rfl, rfl, Nat.le_refl _, [], rfl, by simp⟩

theorem txDirect_api {ep ep' : Ep} {m io why} (hw : why = .direct ∨ why = .heartbeatReq) (h : ep.txDirect m io why = .ok ep') :
    Api ep ep' := by
  obtain ⟨⟨ep1, m1, rc⟩, h1, h⟩ := Res.bind_eq_ok h
  cases h
  exact Api.trans (b := { ep with nextId := ep.nextId + 1 }) ⟨rfl, rfl, rfl, Nat.le_succ _, [], rfl, by simp⟩
    (sendMsg_api h1 (by rcases hw with rfl | rfl <;> simp))

theorem close_api {ep ep' : Ep} (h : ep.close = .ok ep') : Api ep ep' := by
  unfold Ep.close at h
  split at h
  · cases h
  · obtain ⟨ep1, h1, h⟩ := Res.bind_eq_ok h
    cases h
    refine (releaseUses_only h1).api.trans ?_
    refine ⟨rfl, rfl, rfl, Nat.le_refl _, _, rfl, ?_⟩
    intro e he
    simp only [List.mem_reverse, List.mem_flatten, List.mem_map] at he
    obtain ⟨l, ⟨q, _, rfl⟩, he⟩ := he
    simp only [List.mem_cons, List.not_mem_nil, or_false] at he
    rcases he with rfl | rfl <;> rfl

theorem assocResp_api {ep ep' : Ep} {ctx resp cb} (hf : ∀ ep ep', cb ep = .ok ep' → Api ep ep')
    (h : ep.assocResp ctx resp cb = .ok ep') : Api ep ep' := by
  unfold Ep.assocResp at h
  split at h
  · cases h
  split at h
  · cases h
  split at h
  · cases h; exact (peerChg_api _ _ _)
  split at h
  · cases h; exact (peerChg_api _ _ _)
  split at h
  · cases h; exact Api.refl _
  dsimp only at h
  split at h
  · exact (peerChg_api _ _ _).trans ((note_api _ _ rfl).trans (hf _ _ h))
  · cases h; exact (peerChg_api _ _ _)

theorem ok_api : ∀ ep ep' : Ep, Res.ok ep = Res.ok ep' → Api ep ep' := by
  intro ep ep' h; cases h; exact Api.refl _

theorem assocStart_api {ep ep' : Ep} {fi p io} (h : ep.assocStart fi p io = .ok ep') : Api ep ep' := by
  unfold Ep.assocStart at h
  split at h
  · cases h; exact Api.refl _
  · dsimp only at h
    obtain ⟨ep1, h1, h⟩ := Res.bind_eq_ok h
    have h2 := tx_api (fun _ _ hx => assocResp_api ok_api hx) h1
    refine ((peerChg_api _ _ _).trans ((takeUses_only _ _).api.trans h2)).trans ?_
    cases h
    split
    · exact (peerChg_api _ _ _)
    · exact Api.refl _

theorem associate_api {ep ep' : Ep} {fi io} (h : ep.associate fi io = .ok ep') : Api ep ep' := by
  unfold Ep.associate at h
  split at h
  · cases h; exact Api.refl _
  · split at h
    · exact assocStart_api h
    · cases h; exact Api.refl _

theorem run_api (a : App) : ∀ ep ep' : Ep, a.run ep = .ok ep' → Api ep ep' := by
  induction a with
  | done => intro ep ep' h; cases h; exact Api.refl _
  | tx m io f r hf hr =>
    intro ep ep' h
    unfold App.run at h
    split at h
    · cases h
    obtain ⟨ep1, h1, h⟩ := Res.bind_eq_ok h
    exact ((takeUses_only _ _).api.trans (tx_api hf h1)).trans (hr _ _ h)
  | txData m io r hr =>
    intro ep ep' h
    obtain ⟨ep1, h1, h⟩ := Res.bind_eq_ok h
    exact (txDirect_api (.inl rfl) h1).trans (hr _ _ h)
  | heartbeat remote io r hr =>
    intro ep ep' h
    obtain ⟨ep1, h1, h⟩ := Res.bind_eq_ok h
    exact (Api.trans (a := ep) (b := { ep with seq := nextSeqNr ep.seq, draws := ep.draws + 1 })
      ⟨rfl, rfl, rfl, Nat.le_refl _, [], rfl, by simp⟩ (txDirect_api (.inr rfl) h1)).trans (hr _ _ h)
  | invalidate fi r hr =>
    intro ep ep' h
    exact Api.trans (b := ep.invalidate fi) ⟨rfl, rfl, rfl, Nat.le_refl _, [.invalidated fi], rfl, by simp [isRx]⟩ (hr _ _ h)
  | setSeq s r hr =>
    intro ep ep' h
    exact Api.trans (b := { ep with seq := s, resets := ep.resets + 1 })
      ⟨rfl, rfl, rfl, Nat.le_refl _, [], rfl, by simp⟩ (hr _ _ h)
  | setTimers n1 t1 kr r hr =>
    intro ep ep' h
    exact Api.trans (b := { ep with n1 := n1, t1 := t1, keepResp := kr, log := .config n1 t1 kr :: ep.log })
      ⟨rfl, rfl, rfl, Nat.le_refl _, [_], rfl, by simp [isRx]⟩ (hr _ _ h)
  | close r hr =>
    intro ep ep' h
    obtain ⟨ep1, h1, h⟩ := Res.bind_eq_ok h
    exact (close_api h1).trans (hr _ _ h)
  | bind ok r hr =>
    intro ep ep' h
    obtain ⟨ep1, h1, h⟩ := Res.bind_eq_ok h
    obtain ⟨ep2, h2, h1⟩ := Res.bind_eq_ok h1
    cases h1
    exact ((close_api h2).trans (b := ep2) (c := { ep2 with sock := ep2.cfg.hasRx && ok })
      ⟨rfl, rfl, rfl, Nat.le_refl _, [], rfl, by simp⟩).trans (hr _ _ h)
  | setT26 t r hr =>
    intro ep ep' h
    have h2 := hr (Ep.note { ep with t26 := t } (.configT26 t)) ep' h
    refine Api.trans ?_ h2
    exact ⟨rfl, rfl, rfl, Nat.le_refl _, [.configT26 t], rfl, by simp [isRx]⟩
  | newPeer fi remote r hr => intro ep ep' h; exact (newPeer_only ep fi remote).api.trans (hr _ _ h)
  | setAssocCb fi b r hr => intro ep ep' h; exact (setAssocCb_api ep fi b).trans (hr _ _ h)
  | associate fi io r hr =>
    intro ep ep' h
    obtain ⟨ep1, h1, h⟩ := Res.bind_eq_ok h
    exact (associate_api h1).trans (hr _ _ h)

/-! ### One received message -/

/-- Between two states, only these events of reception were added to the log (in this order). -/
def RxAdds (ep ep' : Ep) (l : List Event) : Prop := ∃ n, ep'.log = n ++ ep.log ∧ rxEvents n = l

theorem rxEvents_append (a b : List Event) : rxEvents (a ++ b) = rxEvents b ++ rxEvents a := by
  simp [rxEvents]

theorem RxAdds.refl (ep : Ep) : RxAdds ep ep [] := ⟨[], rfl, rfl⟩

theorem RxAdds.trans {a b c : Ep} {l l'} (h : RxAdds a b l) (h' : RxAdds b c l') : RxAdds a c (l ++ l') := by
  obtain ⟨n, h1, h2⟩ := h
  obtain ⟨n', h1', h2'⟩ := h'
  exact ⟨n' ++ n, by rw [h1', h1, List.append_assoc], by rw [rxEvents_append, h2, h2']⟩

theorem RxAdds.log {ep ep1 : Ep} {l} (h : RxAdds ep ep1 l) {a b : Ep} (ha : a.log = ep.log) (hb : b.log = ep1.log) :
    RxAdds a b l := by
  obtain ⟨n, h1, h2⟩ := h
  exact ⟨n, by rw [hb, ha, h1], h2⟩

theorem RxAdds.note (ep : Ep) {e : Event} (h : isRx e = true) : RxAdds ep (ep.note e) [e] :=
  ⟨[e], rfl, by simp [rxEvents, h]⟩

theorem RxAdds.other {ep ep' : Ep} (l) (hl : ep'.log = l ++ ep.log) (h : ∀ e ∈ l, isRx e = false) : RxAdds ep ep' [] := by
  refine ⟨l, hl, ?_⟩
  simp only [rxEvents, List.reverse_eq_nil_iff, List.filter_eq_nil_iff]
  intro e he
  simp [h e he]

theorem Api.adds {ep ep' : Ep} (h : Api ep ep') : RxAdds ep ep' [] := by
  obtain ⟨l, hl, hx⟩ := h.log
  exact .other l hl hx

theorem run_adds {a : App} {ep ep' : Ep} (h : a.run ep = .ok ep') : RxAdds ep ep' [] := (run_api a _ _ h).adds

/-- The call of set_msg_ctx_cb(), if there is one. -/
def ctxEvent (ep : Ep) (k : Nat) (req : Option Nat) : List Event := if ep.cfg.hasSetCtx then [.setCtx k req] else []

theorem setCtx_adds {ep ep' : Ep} {k req r} (h : ep.setCtx k req r = .ok ep') : RxAdds ep ep' (ctxEvent ep k req) := by
  unfold Ep.setCtx at h
  unfold ctxEvent
  split at h
  · rename_i hs
    rw [if_pos hs]
    exact (RxAdds.note ep (e := .setCtx k req) rfl).trans ((takeUses_only _ _).api.adds.trans (run_adds h))
  · rename_i hs
    cases h
    rw [if_neg hs]
    exact .refl _

theorem setCtx_api {ep ep' : Ep} {k req r} (h : ep.setCtx k req r = .ok ep') :
    ep'.cfg = ep.cfg ∧ ep'.now = ep.now ∧ ep'.rts = ep.rts ∧ ep.nextId ≤ ep'.nextId := by
  unfold Ep.setCtx at h
  split at h
  · have a := (takeUses_only _ _).api.trans (run_api _ _ _ h)
    exact ⟨a.cfg, a.now, a.rts, a.nextId⟩
  · cases h; exact ⟨rfl, rfl, rfl, Nat.le_refl _⟩

theorem dispatch_adds {ep ep' : Ep} {k req r} (h : ep.dispatch k req r = .ok ep') :
    RxAdds ep ep' [.dispatch k req] :=
  (RxAdds.note ep (e := .dispatch k req) rfl).trans (run_adds h)

theorem RxAdds.append_nil {a b : Ep} {l} (h : RxAdds a b (l ++ [])) : RxAdds a b l := by rwa [List.append_nil] at h

theorem respCall_api {ep : Ep} {m prev r x} (h : ep.respCall m prev r = .ok x) : Api ep x.1 ∧ x.2 = respRc prev r := by
  unfold Ep.respCall at h
  unfold respRc
  split at h
  · rename_i hc
    rw [if_pos hc]
    split at h
    · cases h
    · obtain ⟨ep1, h1, h⟩ := Res.bind_eq_ok h
      cases h
      exact ⟨assocResp_api (run_api _) h1, rfl⟩
  · rename_i hc
    rw [if_neg hc]
    obtain ⟨ep1, h1, h⟩ := Res.bind_eq_ok h
    cases h
    exact ⟨run_api _ _ _ h1, rfl⟩

theorem queueDel_api {ep ep' : Ep} {id} (h : ep.queueDel id = .ok ep') : Api ep ep' := by
  obtain ⟨ps, t26, us, rfl⟩ := queueDel_ok h
  exact ⟨rfl, rfl, rfl, Nat.le_refl _, [_], rfl, by simp [isRx]⟩

theorem handleResponse_adds {ep ep' : Ep} {k m prev r} (h : ep.handleResponse k m prev r = .ok ep') :
    RxAdds ep ep' (ctxEvent ep k (some prev.id) ++
      (if prev.m.hasCb then [.respCb prev.id (some k) ep.now] ++ (if respRc prev r = 1 then [.dispatch k (some prev.id)] else [])
       else [.dispatch k (some prev.id)])) := by
  obtain ⟨ep1, h1, h⟩ := Res.bind_eq_ok h
  obtain ⟨ep2, h2, he1⟩ := Res.bind_eq_ok h1
  cases he1
  dsimp only at h
  split at h
  rotate_left
  · cases h
  obtain ⟨ep3, h3, h2⟩ := Res.bind_eq_ok h2
  have c1 : RxAdds ep ep3 (ctxEvent ep k (some prev.id)) := (setCtx_adds h3).log rfl rfl
  have hnow := (setCtx_api h3).2.1
  have hdel : RxAdds ep2 ep' [] := (queueDel_api h).adds.log rfl rfl
  refine RxAdds.append_nil (RxAdds.trans ?_ hdel)
  refine c1.trans ?_
  by_cases hc : prev.m.hasCb = true
  · rw [if_pos hc] at h2 ⊢
    obtain ⟨⟨ep4, rc⟩, h4, h2⟩ := Res.bind_eq_ok h2
    obtain ⟨h4, hrc'⟩ := respCall_api h4
    dsimp only at h4 hrc' h2
    have c2 : RxAdds ep3 ep4 [.respCb prev.id (some k) ep.now] := by
      have := (RxAdds.note ep3 (e := .respCb prev.id (some k) ep3.now) rfl).trans h4.adds
      rw [hnow] at this
      exact this
    refine c2.trans ?_
    split at h2
    · rename_i hrc
      cases h2
      rw [if_neg (by omega)]
      exact .refl _
    · rename_i hrc
      rw [if_pos (by omega)]
      exact dispatch_adds h2
  · rw [if_neg hc] at h2 ⊢
    exact dispatch_adds h2

/-- The answer to a Heartbeat Request. -/
theorem heartbeatReply_adds {ep ep' : Ep} {k m io} (h : ep.heartbeatReply k m io = .ok ep') :
    ∃ hb, RxAdds ep ep' hb ∧ (∀ e ∈ hb, ∃ id r o ok t, e = .send (.heartbeatReply k) id r o ok t) ∧ (m.h.type ≠ 1 → hb = []) ∧
      (m.h.type = 1 → ep.sock = false → hb = []) ∧
      (m.h.type = 1 → ep.sock = true → ∀ o, (heartbeatResp m ep.rts).encode = .ok o →
        hb = [.send (.heartbeatReply k) ep.nextId m.remote o io ep.now]) ∧
      ep'.cfg = ep.cfg ∧ ep'.reqs = ep.reqs ∧ ep'.resps = ep.resps ∧ ep'.now = ep.now ∧ ep'.rts = ep.rts ∧
      ep'.sock = ep.sock ∧ ep'.busy = ep.busy ∧ ep.nextId ≤ ep'.nextId ∧ ep'.draws = ep.draws ∧ ep'.resets = ep.resets ∧
      ep'.seq = ep.seq := by
  unfold Ep.heartbeatReply at h
  split at h
  · rename_i ht
    obtain ⟨⟨ep1, m1, rc⟩, h1, h⟩ := Res.bind_eq_ok h
    cases h
    cases hs : ep.sock with
    | false =>
      refine ⟨[], ?_, by simp, fun _ => rfl, fun _ _ => rfl, fun _ hx => (by cases hx), ?_⟩
      · rcases sendMsg_ok h1 with ⟨o, _, hs', _, hr⟩ | ⟨l, e, enc, hl, -, hr⟩
        · rw [show ep.sock = true from hs'] at hs; cases hs
        · cases hr
          rcases hl with ⟨rfl, _⟩ | ⟨o, ho, rfl⟩
          · exact RxAdds.other [] rfl (by simp)
          · unfold Ep.sendMsg at h1
            simp only [ho, hs, Bool.false_eq_true, if_false] at h1
            have := congrArg (fun x => match x with | .ok (e, _, _) => e.log.length | _ => 0) h1
            simp [Ep.logs] at this
      · rcases sendMsg_ok h1 with ⟨o, _, hs', _, hr⟩ | ⟨l, e, enc, hl, -, hr⟩ <;> cases hr <;>
          exact ⟨rfl, rfl, rfl, rfl, rfl, hs, rfl, Nat.le_succ _, rfl, rfl, rfl⟩
    | true =>
      cases he : (heartbeatResp m ep.rts).encode with
      | ok o =>
        refine ⟨[.send (.heartbeatReply k) ep.nextId m.remote o io ep.now], ?_,
          fun e he => ⟨_, _, _, _, _, List.mem_singleton.mp he⟩, fun hx => absurd ht hx,
          fun _ hx => (by cases hx), fun _ _ o' ho' => ?_, ?_⟩
        · unfold Ep.sendMsg at h1
          simp only [he, hs, if_true] at h1
          cases h1
          exact ⟨[_], rfl, rfl⟩
        · cases ho'; rfl
        · unfold Ep.sendMsg at h1
          simp only [he, hs, if_true] at h1
          cases h1
          exact ⟨rfl, rfl, rfl, rfl, rfl, rfl, rfl, Nat.le_succ _, rfl, rfl, rfl⟩
      | err e x =>
        unfold Ep.sendMsg at h1
        simp only [he] at h1
        cases h1
        exact ⟨[], RxAdds.other [] rfl (by simp), by simp, fun _ => rfl, fun _ _ => rfl, fun _ _ o' ho' => by (cases ho'),
          rfl, rfl, rfl, rfl, rfl, hs, rfl, Nat.le_succ _, rfl, rfl, rfl⟩
      | abort => unfold Ep.sendMsg at h1; simp only [he] at h1; cases h1
      | ub => unfold Ep.sendMsg at h1; simp only [he] at h1; cases h1
      | diverge => unfold Ep.sendMsg at h1; simp only [he] at h1; cases h1
  · rename_i ht
    cases h
    exact ⟨[], .refl _, by simp, fun _ => rfl, fun hx => absurd hx ht, fun hx => absurd hx ht, rfl, rfl, rfl, rfl, rfl, rfl, rfl,
      Nat.le_refl _, rfl, rfl, rfl⟩

/-- A kept response was sent once, apart from answers to duplicates. -/
theorem Life.once {id log s} (h : Life id log s) : ∀ n1 t1 m,
    (s = .passed n1 t1 m → transmissions id log = []) ∧
    ∀ o, s = .sent n1 t1 m o ∨ s = .kept n1 t1 m o → transmissions id log = [(m.remote, o)] := by
  induction h with
  | nil => intro n1 t1 m; exact ⟨by simp, by simp⟩
  | @cons l s e s' hl hn ih =>
    intro n1 t1 m
    rw [transmissions_cons]
    cases hn
    case other ha =>
      obtain ⟨h1, _⟩ := not_about_obs ha
      rw [h1]
      exact ih n1 t1 m
    case pass =>
      have := hl.tally.unseen rfl
      rw [this]
      simp [transmissions]
    case send n1' t1' m' o' t ho =>
      rw [(ih n1' t1' m').1 rfl]
      simp only [reduceCtorEq, false_implies, or_false, true_and]
      intro o h
      cases h
      simp [transmissions]
    case queueResp n1' t1' m' o' _ _ _ =>
      rw [(ih n1' t1' m').2 o' (.inl rfl)]
      simp only [reduceCtorEq, false_implies, false_or, true_and]
      intro o h
      cases h
      simp [transmissions]
    case cached n1' t1' m' o' k ok t =>
      rw [(ih n1' t1' m').2 o' (.inr rfl)]
      simp only [reduceCtorEq, false_implies, false_or, true_and]
      intro o h
      cases h
      simp [transmissions]
    all_goals simp

theorem Steps.invariant {I : Ep × Ph → Prop} (hI : ∀ a b, I a → Micro a b → I b) {a b} (h : Steps a b) (h0 : I a) :
    I b := by
  induction h with
  | refl => exact h0
  | snoc _ m ih => exact hI _ _ ih m

theorem Steps.inv {a b} (h : Steps a b) (h0 : Inv a) : Inv b := h.invariant (fun _ _ h hs => h.step hs) h0

/-- A duplicate of an answered request. -/
theorem handleDuplicate_adds {ep ep' : Ep} {k prev r} (hi : Inv (ep, {})) (hb : ep.busy = []) (hp : prev ∈ ep.resps)
    (h : ep.handleDuplicate k prev r = .ok ep') :
    ∃ o, transmissions prev.id ep.log = [(prev.m.remote, o)] ∧
      RxAdds ep ep' (ctxEvent ep k none ++ [.send (.cachedReply k) prev.id prev.m.remote o r.io ep.now]) ∧
      ∃ e ∈ ep'.resps, e.id = prev.id := by
  have hl := look_of_mem hi.nodupResps hp
  obtain ⟨n1, t1, m, o, hlife, hsame, _⟩ := hi.response hl
  obtain ⟨ep1, h1, h⟩ := Res.bind_eq_ok h
  obtain ⟨ep2, h2, he1⟩ := Res.bind_eq_ok h1
  cases he1
  have g := setCtx_none_goes h2
  have hi2 : Inv (ep2, { at' := some (prev.id, .dup k) }) := by
    refine (g.2 { at' := some (prev.id, .dup k) }).inv ?_
    rw [hb]
    exact hi.dup hp
  dsimp only at h
  cases hf : ep2.resps.find? (fun e => e.id = prev.id) with
  | none => rw [hf] at h; cases h
  | some e =>
    rw [hf] at h
    dsimp only at h
    obtain ⟨n1', t1', m', o', hlife', hsame', _⟩ := hi2.response hf
    have hid := (find_id hf).2
    have c1 : RxAdds ep { ep2 with busy := ep.busy } (ctxEvent ep k none) := (setCtx_adds h2).log rfl rfl
    obtain ⟨n, hn, _⟩ := id c1
    have heq : (e.m.remote, o') = (prev.m.remote, o) := by
      have t1 := (hlife.once n1 t1 m).2 o (.inr rfl)
      have t2 := (hlife'.once n1' t1' m').2 o' (.inr rfl)
      rw [show ep2.log = n ++ ep.log from hn, transmissions_append, t1] at t2
      have := congrArg (fun l => l.getLast?) t2
      simp at this
      rw [hsame.remote, hsame'.remote]
      simp [this]
    refine ⟨o, ?_, ?_⟩
    · rw [(hlife.once n1 t1 m).2 o (.inr rfl), hsame.remote]
    · obtain ⟨⟨ep3, m3, rc⟩, h3, h⟩ := Res.bind_eq_ok h
      cases h
      have hsock := hi2.sockOn' hf
      unfold Ep.sendMsg at h3
      simp only [hsame'.encode, hsock, if_true] at h3
      cases h3
      refine ⟨c1.trans ?_, ⟨{ e with m := { e.m with encoded := some o' } }, ?_, hid⟩⟩
      · refine ⟨[.send (.cachedReply k) prev.id prev.m.remote o r.io ep.now], ?_, rfl⟩
        simp only [Ep.note, List.cons_append, List.nil_append]
        have hr := congrArg Prod.fst heq
        have ho := congrArg Prod.snd heq
        dsimp only at hr ho
        have hnow : ep2.now = ep.now := (setCtx_api h2).2.1
        rw [hid, hnow, hr, ho]
      · have := (find_id hf).1
        simp only [Ep.note, setEntry, List.mem_map]
        exact ⟨e, this, by simp⟩

/-- Which pending request or kept response a received message refers to. -/
theorem queueFind_none {q : List QEntry} {rx : PMsg} (hq : ∀ e ∈ q, e.m.isResponse = !rx.isResponse) :
    queueFind q rx = none ↔ ∀ e ∈ q, e.m.h.seq ≠ rx.h.seq := by
  unfold queueFind
  simp only [List.find?_eq_none, Bool.and_eq_true, bne_iff_ne, ne_eq, beq_iff_eq, not_and]
  refine ⟨fun h e he => h e he (by rw [hq e he]; simp), fun h e he _ => h e he⟩

theorem queueFind_some {q : List QEntry} {rx : PMsg} {e} (h : queueFind q rx = some e) : e ∈ q ∧ e.m.h.seq = rx.h.seq := by
  unfold queueFind at h
  have := List.find?_some h
  exact ⟨List.mem_of_find?_eq_some h, by
    simp only [Bool.and_eq_true, beq_iff_eq] at this
    exact this.2⟩

/-- If only one entry has the sequence number, this one is found. -/
theorem queueFind_unique {q : List QEntry} {rx : PMsg} {e} (hq : ∀ e ∈ q, e.m.isResponse = !rx.isResponse) (he : e ∈ q)
    (hs : e.m.h.seq = rx.h.seq) (hu : ∀ x ∈ q, x.m.h.seq = rx.h.seq → x.id = e.id) :
    ∃ x, queueFind q rx = some x ∧ x.id = e.id := by
  cases hf : queueFind q rx with
  | none => exact absurd hs ((queueFind_none hq).mp hf e he)
  | some x =>
    obtain ⟨h1, h2⟩ := queueFind_some hf
    exact ⟨x, rfl, hu x h1 h2⟩

end Verif
