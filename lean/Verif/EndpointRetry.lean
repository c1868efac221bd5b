/-
When the retry timer of a CP peer is due: what each function does to it.
-/
import Verif.EndpointPeer2
import Verif.SpecPeer

namespace Verif

/-- State changes of CP peers, and of T26. -/
def retryEvent : Event → Bool
  | .peer _ (.state _) => true
  | .configT26 _ => true
  | _ => false

/-- None of these is among the events. -/
def Steady (l : List Event) : Prop := ∀ e ∈ l, retryEvent e = false

theorem Steady.state {l : List Event} (h : Steady l) (fi s) : Event.peer fi (.state s) ∉ l := fun hm => nomatch h _ hm

theorem Steady.t26In {l : List Event} (h : Steady l) (l' : List Event) : t26In (l ++ l') = t26In l' := by
  induction l with
  | nil => rfl
  | cons e l ih =>
    have h1 := h e (.head _)
    have h2 := ih fun x hx => h x (.tail _ hx)
    cases e with
    | configT26 t => cases h1
    | _ => simpa [Verif.t26In] using h2

/-- A value of T26 that is in force at some time. -/
def T26At (old : Nat) (l : List Event) (t : Nat) : Prop := t = old ∨ .configT26 t ∈ l

/-- From `ep` to `ep'`: a timer that is running was running before (for the same time, and the peer has not changed its
state), or was started now. -/
structure WaitsBy (ep ep' : Ep) (l : List Event) : Prop where
  now : ep'.now = ep.now
  log : ep'.log = l ++ ep.log
  t26 : T26At ep.t26 l ep'.t26
  cur : ep.t26 = t26In ep.log → ep'.t26 = t26In ep'.log
  timer : ∀ fi p' d, ep'.peer? fi = some p' → p'.timer = some d →
    (∃ p, ep.peer? fi = some p ∧ p.timer = some d ∧ ∀ s, Event.peer fi (.state s) ∉ l) ∨
    ∃ t, t ≠ 0 ∧ d = ep.now + t ∧ T26At ep.t26 l t
  starts : ∀ fi p', ep'.peer? fi = some p' → p'.state = .waitRetry → p'.timer = none →
    (∃ p, ep.peer? fi = some p ∧ p.state = .waitRetry ∧ p.timer = none ∧ ∀ s, Event.peer fi (.state s) ∉ l) ∨ T26At ep.t26 l 0

def Waits (ep ep' : Ep) : Prop := ∃ l, WaitsBy ep ep' l

theorem Waits.same {ep ep' : Ep} (l : List Event) (hl : ep'.log = l ++ ep.log) (hs : Steady l) (h1 : ep'.now = ep.now)
    (h2 : ep'.t26 = ep.t26) (h3 : ep'.peers = ep.peers) : Waits ep ep' := by
  refine ⟨l, h1, hl, .inl h2, fun hc => ?_, fun fi p' d hp hd => .inl ⟨p', ?_, hd, hs.state fi⟩,
    fun fi p' hp hw ht => .inl ⟨p', ?_, hw, ht, hs.state fi⟩⟩
  · rw [hl, hs.t26In, h2, hc]
  · unfold Ep.peer? at hp ⊢
    rw [← h3]; exact hp
  · unfold Ep.peer? at hp ⊢
    rw [← h3]; exact hp

theorem steady_nil : Steady [] := fun _ h => nomatch h

theorem Waits.refl (ep : Ep) : Waits ep ep := .same [] rfl steady_nil rfl rfl rfl

theorem T26At.trans {a b t : Nat} {l l' : List Event} (h : T26At a l b) (h' : T26At b l' t) : T26At a (l' ++ l) t := by
  rcases h' with rfl | h'
  · rcases h with h | h
    · exact .inl h
    · exact .inr (List.mem_append_right _ h)
  · exact .inr (List.mem_append_left _ h')

theorem T26At.more {a t : Nat} {l : List Event} (l' : List Event) (h : T26At a l t) : T26At a (l' ++ l) t := by
  rcases h with h | h
  · exact .inl h
  · exact .inr (List.mem_append_right _ h)

theorem Waits.trans {a b c : Ep} (h : Waits a b) (h' : Waits b c) : Waits a c := by
  obtain ⟨l, h⟩ := h
  obtain ⟨l', h'⟩ := h'
  refine ⟨l' ++ l, h'.now.trans h.now, by rw [h'.log, h.log, List.append_assoc], h.t26.trans h'.t26, fun hc => h'.cur (h.cur hc), ?_, ?_⟩
  rotate_left
  · intro fi p' hp hw ht
    rcases h'.starts fi p' hp hw ht with ⟨p, hp1, hw1, ht1, hs1⟩ | hi
    · rcases h.starts fi p hp1 hw1 ht1 with ⟨q, hp2, hw2, ht2, hs2⟩ | hi
      · refine .inl ⟨q, hp2, hw2, ht2, fun s hm => ?_⟩
        rcases List.mem_append.1 hm with hm | hm
        · exact hs1 s hm
        · exact hs2 s hm
      · exact .inr (hi.more l')
    · exact .inr (h.t26.trans hi)
  intro fi p' d hp hd
  rcases h'.timer fi p' d hp hd with ⟨p, hp1, hd1, hs1⟩ | ⟨t, h0, ht, hi⟩
  · rcases h.timer fi p d hp1 hd1 with ⟨q, hp2, hd2, hs2⟩ | ⟨t, h0, ht, hi⟩
    · refine .inl ⟨q, hp2, hd2, fun s hm => ?_⟩
      rcases List.mem_append.1 hm with hm | hm
      · exact hs1 s hm
      · exact hs2 s hm
    · exact .inr ⟨t, h0, ht, hi.more l'⟩
  · exact .inr ⟨t, h0, by rw [ht, h.now], h.t26.trans hi⟩

/-- `busy` does not matter. -/
theorem Waits.busy {ep ep' : Ep} {b b'} (h : Waits { ep with busy := b } ep') : Waits ep { ep' with busy := b' } := by
  obtain ⟨l, h⟩ := h
  exact ⟨l, h.now, h.log, h.t26, h.cur, h.timer, h.starts⟩

theorem note_waits (ep : Ep) (e : Event) (h : retryEvent e = false) : Waits ep (ep.note e) :=
  .same [e] rfl (fun x hm => by rw [List.mem_singleton.1 hm]; exact h) rfl rfl rfl

theorem sendMsg_waits {ep : Ep} {why id m io r} (h : ep.sendMsg why id m io = .ok r) : Waits ep r.1 := by
  rcases sendMsg_ok h with ⟨o, _, _, _, rfl⟩ | ⟨l, e, enc, hl, -, rfl⟩
  · exact note_waits _ _ rfl
  · rcases hl with ⟨rfl, _⟩ | ⟨o, _, rfl⟩
    · exact .same [] rfl steady_nil rfl rfl rfl
    · exact .same [_] rfl (by intro e he; simp at he; subst he; rfl) rfl rfl rfl

theorem using_waits {ep ep' : Ep} {id f} (hf : ∀ ep ep', f ep = .ok ep' → Waits ep ep') (h : ep.using id f = .ok ep') :
    Waits ep ep' := by
  obtain ⟨ep1, h1, h⟩ := Res.bind_eq_ok h
  cases h
  exact (hf _ _ h1).busy

theorem failCb_waits {ep ep' : Ep} {id m cb} (hf : ∀ ep ep', cb ep = .ok ep' → Waits ep ep')
    (h : ep.failCb id m cb = .ok ep') : Waits ep ep' := by
  unfold Ep.failCb at h
  split at h
  · exact (note_waits ep _ rfl).trans (using_waits hf h)
  · cases h; exact .refl _

theorem peerChg_waits (ep : Ep) (fi s) : Waits ep (ep.peerChg fi s) := by
  unfold Ep.peerChg
  split
  · exact .refl _
  · rename_i p hp
    split
    · refine ⟨[.peer fi (.state s)], rfl, rfl, .inl rfl, fun hc => hc, ?_, ?_⟩
      rotate_left
      · intro fi' p' hp' hw ht
        have hp'' : (setPeer ep.peers (p.enter s ep.now ep.t26)).find? (fun x => x.fi = fi') = some p' := hp'
        rw [find_setPeer] at hp''
        have he : (p.enter s ep.now ep.t26).fi = fi := (peer?_fi hp : p.fi = fi)
        rw [he] at hp''
        by_cases hx : fi = fi'
        · rw [if_pos hx.symm] at hp''
          right
          have : p' = p.enter s ep.now ep.t26 := by
            cases hy : ep.peers.find? (fun x => x.fi = fi') with
            | none => rw [hy] at hp''; cases hp''
            | some q => rw [hy] at hp''; cases hp''; rfl
          rw [this] at hw ht
          simp only [Peer.enter] at hw ht
          by_cases h0 : ep.t26 = 0
          · exact .inl h0.symm
          · rw [if_pos ⟨hw, h0⟩] at ht
            cases ht
        · rw [if_neg (fun hy => hx hy.symm)] at hp''
          refine .inl ⟨p', hp'', hw, ht, fun s' hm => ?_⟩
          have := List.mem_singleton.1 hm
          simp only [Event.peer.injEq] at this
          exact hx this.1.symm
      intro fi' p' d hp' hd
      have hfi : p.fi = fi := by
        have := List.find?_some hp
        simpa using this
      have hp'' : (setPeer ep.peers (p.enter s ep.now ep.t26)).find? (fun x => x.fi = fi') = some p' := hp'
      rw [find_setPeer] at hp''
      have he : (p.enter s ep.now ep.t26).fi = fi := hfi
      rw [he] at hp''
      by_cases hx : fi = fi'
      · rw [if_pos hx.symm] at hp''
        right
        have : p' = p.enter s ep.now ep.t26 := by
          cases hy : ep.peers.find? (fun x => x.fi = fi') with
          | none => rw [hy] at hp''; cases hp''
          | some q => rw [hy] at hp''; cases hp''; rfl
        rw [this] at hd
        simp only [Peer.enter] at hd
        split at hd
        · rename_i ht
          simp only [Option.some.injEq] at hd
          exact ⟨ep.t26, ht.2, hd.symm, .inl rfl⟩
        · cases hd
      · rw [if_neg (fun hy => hx hy.symm)] at hp''
        refine .inl ⟨p', hp'', hd, fun s' hm => ?_⟩
        have := List.mem_singleton.1 hm
        simp only [Event.peer.injEq] at this
        exact hx this.1.symm
    · exact .refl _

theorem setAssocCb_waits (ep : Ep) (fi b) : Waits ep (ep.setAssocCb fi b) := by
  unfold Ep.setAssocCb
  split
  · exact .refl _
  · rename_i p hp
    refine ⟨[.peer fi (.cbSet b)], rfl, rfl, .inl rfl, fun hc => hc, ?_, ?_⟩
    rotate_left
    · intro fi' p' hp' hw ht
      have hfi : p.fi = fi := by simpa using List.find?_some hp
      have hp'' : (setPeer ep.peers { p with hasCb := b }).find? (fun x => x.fi = fi') = some p' := hp'
      rw [find_setPeer] at hp''
      dsimp only at hp''
      left
      by_cases hx : p.fi = fi'
      · rw [if_pos hx.symm] at hp''
        have : ep.peers.find? (fun x => x.fi = fi') = some p := by rw [← hx, hfi]; exact hp
        rw [this] at hp''
        cases hp''
        exact ⟨p, this, hw, ht, by simp⟩
      · rw [if_neg (fun hy => hx hy.symm)] at hp''
        exact ⟨p', hp'', hw, ht, by simp⟩
    intro fi' p' d hp' hd
    have hfi : p.fi = fi := by simpa using List.find?_some hp
    have hp'' : (setPeer ep.peers { p with hasCb := b }).find? (fun x => x.fi = fi') = some p' := hp'
    rw [find_setPeer] at hp''
    dsimp only at hp''
    left
    by_cases hx : p.fi = fi'
    · rw [if_pos hx.symm] at hp''
      have : ep.peers.find? (fun x => x.fi = fi') = some p := by rw [← hx, hfi]; exact hp
      rw [this] at hp''
      cases hp''
      exact ⟨p, this, hd, by simp⟩
    · rw [if_neg (fun hy => hx hy.symm)] at hp''
      exact ⟨p', hp'', hd, by simp⟩

theorem newPeer_waits (ep : Ep) (fi r) : Waits ep (ep.newPeer fi r) := by
  unfold Ep.newPeer
  split
  · exact .refl _
  · refine ⟨[], rfl, rfl, .inl rfl, fun hc => hc, ?_, ?_⟩
    rotate_left
    · intro fi' p' hp' hw ht
      have hp'' : ({ fi, remote := r : Peer } :: ep.peers).find? (fun x => x.fi = fi') = some p' := hp'
      rw [List.find?_cons] at hp''
      split at hp''
      · cases hp''; cases hw
      · exact .inl ⟨p', hp'', hw, ht, by simp⟩
    intro fi' p' d hp' hd
    have hp'' : ({ fi, remote := r : Peer } :: ep.peers).find? (fun x => x.fi = fi') = some p' := hp'
    rw [List.find?_cons] at hp''
    split at hp''
    · cases hp''; cases hd
    · exact .inl ⟨p', hp'', hd, by simp⟩

theorem releaseUses_waits {ep ep' : Ep} {us} (h : ep.releaseUses us = .ok ep') : Waits ep ep' := by
  obtain ⟨rfl, -⟩ := releaseUses_ok h
  exact .same [] rfl steady_nil rfl rfl rfl

theorem takeUses_waits (ep : Ep) (us) : Waits ep (ep.takeUses us) := .same [] rfl steady_nil rfl rfl rfl

theorem begun_waits (ep : Ep) (m : PMsg) : Waits ep (ep.begun m) := by
  unfold Ep.begun
  split <;> exact .same [] rfl steady_nil rfl rfl rfl

theorem tx_waits {ep ep' : Ep} {m io cb} (hf : ∀ ep ep', cb ep = .ok ep' → Waits ep ep') (h : ep.tx m io cb = .ok ep') :
    Waits ep ep' := by
  rw [tx_eq] at h
  obtain ⟨⟨ep1, m1, rc⟩, h1, h⟩ := Res.bind_eq_ok h
  refine ((begun_waits ep m).trans ((note_waits _ _ rfl).trans (sendMsg_waits h1))).trans ?_
  cases rc with
  | some e =>
    obtain ⟨ep2, h2, h⟩ := Res.bind_eq_ok h
    obtain ⟨ep3, h3, h⟩ := Res.bind_eq_ok h
    cases h
    exact (failCb_waits hf h2).trans ((releaseUses_waits h3).trans ((note_waits _ _ rfl).trans (note_waits _ _ rfl)))
  | none =>
    obtain ⟨ep2, h2, h⟩ := Res.bind_eq_ok h
    cases h
    refine Waits.trans ?_ (note_waits _ _ rfl)
    unfold Ep.queueAdd at h2
    split at h2
    · exact failCb_waits hf h2
    · split at h2 <;> cases h2 <;> exact .same [] rfl steady_nil rfl rfl rfl

theorem txDirect_waits {ep ep' : Ep} {m io why} (h : ep.txDirect m io why = .ok ep') : Waits ep ep' := by
  obtain ⟨⟨ep1, m1, rc⟩, h1, h⟩ := Res.bind_eq_ok h
  cases h
  exact Waits.trans (b := { ep with nextId := ep.nextId + 1 }) (.same [] rfl steady_nil rfl rfl rfl) (sendMsg_waits h1)

theorem close_waits {ep ep' : Ep} (h : ep.close = .ok ep') : Waits ep ep' := by
  unfold Ep.close at h
  split at h
  · cases h
  · obtain ⟨ep1, h1, h⟩ := Res.bind_eq_ok h
    cases h
    refine (releaseUses_waits h1).trans (.same _ rfl ?_ rfl rfl rfl)
    intro e he
    simp only [List.mem_reverse, List.mem_flatten, List.mem_map] at he
    obtain ⟨l, ⟨q, _, rfl⟩, he⟩ := he
    simp only [List.mem_cons, List.not_mem_nil, or_false] at he
    rcases he with rfl | rfl <;> rfl

theorem assocResp_waits {ep ep' : Ep} {ctx resp cb} (hf : ∀ ep ep', cb ep = .ok ep' → Waits ep ep')
    (h : ep.assocResp ctx resp cb = .ok ep') : Waits ep ep' := by
  unfold Ep.assocResp at h
  split at h
  · cases h
  split at h
  · cases h
  split at h
  · cases h; exact (peerChg_waits _ _ _)
  split at h
  · cases h; exact (peerChg_waits _ _ _)
  split at h
  · cases h; exact .refl _
  dsimp only at h
  split at h
  · exact (peerChg_waits _ _ _).trans ((note_waits _ _ rfl).trans (hf _ _ h))
  · cases h; exact (peerChg_waits _ _ _)

theorem ok_waits : ∀ ep ep' : Ep, Res.ok ep = Res.ok ep' → Waits ep ep' := by
  intro ep ep' h; cases h; exact .refl _

theorem assocStart_waits {ep ep' : Ep} {fi p io} (h : ep.assocStart fi p io = .ok ep') : Waits ep ep' := by
  unfold Ep.assocStart at h
  split at h
  · cases h; exact .refl _
  · dsimp only at h
    obtain ⟨ep1, h1, h⟩ := Res.bind_eq_ok h
    have h2 := tx_waits (fun _ _ hx => assocResp_waits ok_waits hx) h1
    refine ((peerChg_waits _ _ _).trans ((takeUses_waits _ _).trans h2)).trans ?_
    cases h
    split
    · exact (peerChg_waits _ _ _)
    · exact .refl _

theorem associate_waits {ep ep' : Ep} {fi io} (h : ep.associate fi io = .ok ep') : Waits ep ep' := by
  unfold Ep.associate at h
  split at h
  · cases h; exact .refl _
  · split at h
    · exact assocStart_waits h
    · cases h; exact .refl _

theorem run_waits (a : App) : ∀ ep ep' : Ep, a.run ep = .ok ep' → Waits ep ep' := by
  induction a with
  | done => intro ep ep' h; cases h; exact .refl _
  | tx m io f r hf hr =>
    intro ep ep' h
    unfold App.run at h
    split at h
    · cases h
    obtain ⟨ep1, h1, h⟩ := Res.bind_eq_ok h
    exact ((takeUses_waits _ _).trans (tx_waits hf h1)).trans (hr _ _ h)
  | txData m io r hr =>
    intro ep ep' h
    obtain ⟨ep1, h1, h⟩ := Res.bind_eq_ok h
    exact (txDirect_waits h1).trans (hr _ _ h)
  | heartbeat remote io r hr =>
    intro ep ep' h
    obtain ⟨ep1, h1, h⟩ := Res.bind_eq_ok h
    exact (Waits.trans (a := ep) (b := { ep with seq := nextSeqNr ep.seq, draws := ep.draws + 1 })
      (.same [] rfl steady_nil rfl rfl rfl) (txDirect_waits h1)).trans (hr _ _ h)
  | invalidate fi r hr =>
    intro ep ep' h
    exact Waits.trans (b := ep.invalidate fi) (.same [.invalidated fi] rfl (by intro e he; simp at he; subst he; rfl) rfl rfl rfl) (hr _ _ h)
  | setSeq s r hr =>
    intro ep ep' h
    exact Waits.trans (b := { ep with seq := s, resets := ep.resets + 1 }) (.same [] rfl steady_nil rfl rfl rfl) (hr _ _ h)
  | setTimers n1 t1 kr r hr =>
    intro ep ep' h
    exact Waits.trans (b := { ep with n1 := n1, t1 := t1, keepResp := kr, log := .config n1 t1 kr :: ep.log })
      (.same [.config n1 t1 kr] rfl (by intro e he; simp at he; subst he; rfl) rfl rfl rfl) (hr _ _ h)
  | close r hr =>
    intro ep ep' h
    obtain ⟨ep1, h1, h⟩ := Res.bind_eq_ok h
    exact (close_waits h1).trans (hr _ _ h)
  | bind ok r hr =>
    intro ep ep' h
    obtain ⟨ep1, h1, h⟩ := Res.bind_eq_ok h
    obtain ⟨ep2, h2, h1⟩ := Res.bind_eq_ok h1
    cases h1
    exact ((close_waits h2).trans (b := ep2) (c := { ep2 with sock := ep2.cfg.hasRx && ok })
      (.same [] rfl steady_nil rfl rfl rfl)).trans (hr _ _ h)
  | setT26 t r hr =>
    intro ep ep' h
    have h2 := hr (Ep.note { ep with t26 := t } (.configT26 t)) ep' h
    refine Waits.trans ?_ h2
    exact ⟨[.configT26 t], rfl, rfl, .inr (.head _), fun _ => rfl, fun fi p' d hp hd => .inl ⟨p', hp, hd, by simp⟩,
      fun fi p' hp hw ht => .inl ⟨p', hp, hw, ht, by simp⟩⟩
  | newPeer fi remote r hr => intro ep ep' h; exact (newPeer_waits ep fi remote).trans (hr _ _ h)
  | setAssocCb fi b r hr => intro ep ep' h; exact (setAssocCb_waits ep fi b).trans (hr _ _ h)
  | associate fi io r hr =>
    intro ep ep' h
    obtain ⟨ep1, h1, h⟩ := Res.bind_eq_ok h
    exact (associate_waits h1).trans (hr _ _ h)

theorem queueDel_waits {ep ep' : Ep} {id} (h : ep.queueDel id = .ok ep') : Waits ep ep' := by
  obtain ⟨ep1, h1, h⟩ := Res.bind_eq_ok h
  cases h
  exact (releaseUses_waits h1).trans (.same [.freed id] rfl (by intro e he; simp at he; subst he; rfl) rfl rfl rfl)

theorem setCtx_waits {ep ep' : Ep} {k req r} (h : ep.setCtx k req r = .ok ep') : Waits ep ep' := by
  unfold Ep.setCtx at h
  split at h
  · exact (note_waits ep (.setCtx k req) rfl).trans ((takeUses_waits _ _).trans (run_waits _ _ _ h))
  · cases h; exact .refl _

theorem dispatch_waits {ep ep' : Ep} {k req r} (h : ep.dispatch k req r = .ok ep') : Waits ep ep' :=
  (note_waits ep (.dispatch k req) rfl).trans (run_waits _ _ _ h)

theorem respCall_waits {ep : Ep} {m prev r x} (h : ep.respCall m prev r = .ok x) : Waits ep x.1 := by
  unfold Ep.respCall at h
  split at h
  · split at h
    · cases h
    · obtain ⟨ep1, h1, h⟩ := Res.bind_eq_ok h
      cases h
      exact assocResp_waits (run_waits _) h1
  · obtain ⟨ep1, h1, h⟩ := Res.bind_eq_ok h
    cases h
    exact run_waits _ _ _ h1

theorem handleResponse_waits {ep ep' : Ep} {k m prev r} (h : ep.handleResponse k m prev r = .ok ep') : Waits ep ep' := by
  obtain ⟨ep1, h1, h⟩ := Res.bind_eq_ok h
  have a1 : Waits ep ep1 := by
    refine using_waits ?_ h1
    intro x x' hx
    obtain ⟨ep3, h3, hx⟩ := Res.bind_eq_ok hx
    refine (setCtx_waits h3).trans ?_
    split at hx
    · obtain ⟨⟨ep4, rc⟩, h4, hx⟩ := Res.bind_eq_ok hx
      refine (note_waits ep3 (.respCb prev.id (some k) ep3.now) rfl).trans ((respCall_waits h4).trans ?_)
      dsimp only at hx
      split at hx
      · cases hx; exact .refl _
      · exact dispatch_waits hx
    · exact dispatch_waits hx
  split at h
  · exact a1.trans (queueDel_waits h)
  · cases h

theorem handleDuplicate_waits {ep ep' : Ep} {k prev r} (h : ep.handleDuplicate k prev r = .ok ep') : Waits ep ep' := by
  obtain ⟨ep1, h1, h⟩ := Res.bind_eq_ok h
  refine (using_waits (fun _ _ hx => setCtx_waits hx) h1).trans ?_
  split at h
  · cases h
  · obtain ⟨⟨ep5, m5, rc⟩, h5, h⟩ := Res.bind_eq_ok h
    cases h
    exact (sendMsg_waits h5).trans (.same [] rfl steady_nil rfl rfl rfl)

theorem handleMsg_waits {ep ep' : Ep} {k m r} (h : ep.handleMsg k m r = .ok ep') : Waits ep ep' := by
  unfold Ep.handleMsg at h
  split at h
  · split at h
    · exact handleResponse_waits h
    · exact handleDuplicate_waits h
  · obtain ⟨ep1, h1, h⟩ := Res.bind_eq_ok h
    exact (setCtx_waits h1).trans (dispatch_waits h)

theorem handleRx_waits {ep ep' : Ep} {m r} (h : ep.handleRx m r = .ok ep') : Waits ep ep' := by
  unfold Ep.handleRx at h
  obtain ⟨ep1, h1, h⟩ := Res.bind_eq_ok h
  obtain ⟨ep2, h2, h⟩ := Res.bind_eq_ok h
  have a0 : Waits ep ({ ep with nextId := ep.nextId + 1 }.note (.received ep.nextId m)) :=
    .same [.received ep.nextId m] rfl (by intro e he; simp at he; subst he; rfl) rfl rfl rfl
  have a1 : Waits ({ ep with nextId := ep.nextId + 1 }.note (.received ep.nextId m)) ep1 := by
    unfold Ep.heartbeatReply at h1
    split at h1
    · obtain ⟨⟨ep3, m3, rc⟩, h3, h1⟩ := Res.bind_eq_ok h1
      cases h1
      refine Waits.trans ?_ (sendMsg_waits h3)
      exact .same [] rfl steady_nil rfl rfl rfl
    · cases h1; exact .refl _
  exact a0.trans (a1.trans ((handleMsg_waits h2).trans (releaseUses_waits h)))

theorem handleAll_waits {remote} : ∀ {l : List Rx} {rs} {ep ep' : Ep}, ep.handleAll remote l rs = .ok ep' → Waits ep ep'
  | [], rs, ep, ep', h => by unfold Ep.handleAll at h; cases h; exact .refl _
  | ⟨d, none⟩ :: l, rs, ep, ep', h => by unfold Ep.handleAll at h; exact handleAll_waits h
  | ⟨d, some ies⟩ :: l, rs, ep, ep', h => by
    unfold Ep.handleAll at h
    obtain ⟨ep1, h1, h⟩ := Res.bind_eq_ok h
    exact (handleRx_waits h1).trans (handleAll_waits h)

theorem rxDatagram_waits {ep ep' : Ep} {remote d rs} (h : ep.rxDatagram remote d rs = .ok ep') : Waits ep ep' := by
  unfold Ep.rxDatagram at h
  dsimp only at h
  split at h
  · cases h; exact .refl _
  split at h
  · cases h
  obtain ⟨l, _, h⟩ := Res.bind_eq_ok h
  exact handleAll_waits h

theorem reqTimer_waits {ep ep' : Ep} {id io cb} (hf : ∀ ep ep', cb ep = .ok ep' → Waits ep ep')
    (h : ep.reqTimer id io cb = .ok ep') : Waits ep ep' := by
  unfold Ep.reqTimer at h
  split at h
  · cases h; exact .refl _
  rename_i e _
  split at h
  · cases h; exact .refl _
  split at h
  · cases h
  dsimp only at h
  obtain ⟨⟨ep1, keep⟩, h1, h⟩ := Res.bind_eq_ok h
  dsimp only at h
  have a1 : Waits ep ep1 := by
    refine Waits.trans (b := { ep with reqs := setEntry ep.reqs { e with timer := none } }) (.same [] rfl steady_nil rfl rfl rfl) ?_
    unfold Ep.retrans at h1
    split at h1
    · cases h1; exact .refl _
    obtain ⟨⟨ep2, m, rc⟩, h2, h1⟩ := Res.bind_eq_ok h1
    have := sendMsg_waits h2
    cases rc <;> cases h1 <;> exact this.trans (.same [] rfl steady_nil rfl rfl rfl)
  cases hk : keep
  case true =>
    rw [if_pos hk] at h
    cases h; exact a1
  rw [if_neg (by simp [hk])] at h
  obtain ⟨ep2, h2, h⟩ := Res.bind_eq_ok h
  have a2 : Waits ep1 ep2 := by
    split at h2
    · refine (note_waits ep1 _ rfl).trans (using_waits ?_ h2)
      intro x x' hx
      split at hx
      · exact assocResp_waits ok_waits hx
      · exact hf _ _ hx
    · cases h2; exact .refl _
  split at h
  · exact (a1.trans a2).trans (queueDel_waits h)
  · cases h

/-- A CP peer that tries again changes its state. -/
theorem assocStart_changes {ep ep' : Ep} {fi p io} (hp : ep.peer? fi = some p) (hs : p.state = .waitRetry)
    (h : ep.assocStart fi p io = .ok ep') :
    ∃ l, ep'.log = l ++ ep.log ∧ Event.peer fi (.state .waitAssoc) ∈ l := by
  have hper : p.state.permits .waitAssoc = true := by rw [hs]; rfl
  unfold Ep.assocStart at h
  rw [if_neg (by simp [hper])] at h
  dsimp only at h
  obtain ⟨ep1, h1, h⟩ := Res.bind_eq_ok h
  have h2 := (takeUses_waits _ _).trans (tx_waits (fun _ _ hx => assocResp_waits ok_waits hx) h1)
  have h3 : Waits (ep.peerChg fi .waitAssoc) ep' := by
    refine h2.trans ?_
    cases h
    split
    · exact (peerChg_waits _ _ _)
    · exact .refl _
  obtain ⟨l, hl⟩ := h3
  refine ⟨l ++ [.peer fi (.state .waitAssoc)], ?_, by simp⟩
  rw [hl.log]
  unfold Ep.peerChg
  simp [hp, hper, Ep.note]

theorem peerTimer_waits {ep ep' : Ep} {fi io} (h : ep.peerTimer fi io = .ok ep') : Waits ep ep' := by
  unfold Ep.peerTimer at h
  split at h
  · cases h; exact .refl _
  rename_i p hp
  split at h
  · cases h; exact .refl _
  dsimp only at h
  have hfi : p.fi = fi := by simpa using List.find?_some hp
  have hmid : ∀ fi' p', ({ ep with peers := setPeer ep.peers { p with timer := none } } : Ep).peer? fi' = some p' →
      (fi' = fi ∧ p' = { p with timer := none }) ∨ (fi' ≠ fi ∧ ep.peer? fi' = some p') := by
    intro fi' p' hp'
    have hp'' : (setPeer ep.peers { p with timer := none }).find? (fun x => x.fi = fi') = some p' := hp'
    rw [find_setPeer] at hp''
    dsimp only at hp''
    by_cases hx : p.fi = fi'
    · rw [if_pos hx.symm] at hp''
      have : ep.peers.find? (fun x => x.fi = fi') = some p := by rw [← hx, hfi]; exact hp
      rw [this] at hp''
      cases hp''
      exact .inl ⟨hx.symm.trans hfi, rfl⟩
    · rw [if_neg (fun hy => hx hy.symm)] at hp''
      exact .inr ⟨fun hy => hx (hfi.trans hy.symm), hp''⟩
  split at h
  · rename_i hst
    have hpm : ({ ep with peers := setPeer ep.peers { p with timer := none } } : Ep).peer? fi = some { p with timer := none } := by
      show (setPeer ep.peers { p with timer := none }).find? (fun x => x.fi = fi) = _
      rw [find_setPeer]
      dsimp only
      rw [if_pos hfi.symm, show ep.peers.find? (fun x => x.fi = fi) = some p from hp]
      rfl
    obtain ⟨l2, hl2, hm2⟩ := assocStart_changes hpm hst h
    obtain ⟨l, hw⟩ := assocStart_waits h
    have hll : l = l2 := by
      have := hw.log.symm.trans hl2
      exact List.append_cancel_right this
    subst hll
    refine ⟨l, hw.now, hw.log, hw.t26, hw.cur, ?_, ?_⟩
    · intro fi' p' d hp' hd
      rcases hw.timer fi' p' d hp' hd with ⟨q, hq, hqd, hqs⟩ | hr
      · rcases hmid fi' q hq with ⟨-, rfl⟩ | ⟨-, hq'⟩
        · cases hqd
        · exact .inl ⟨q, hq', hqd, hqs⟩
      · exact .inr hr
    · intro fi' p' hp' hs' ht'
      rcases hw.starts fi' p' hp' hs' ht' with ⟨q, hq, hqs, hqt, hql⟩ | hr
      · rcases hmid fi' q hq with ⟨rfl, rfl⟩ | ⟨-, hq'⟩
        · exact absurd hm2 (hql _)
        · exact .inl ⟨q, hq', hqs, hqt, hql⟩
      · exact .inr hr
  · cases h
    have hfil : ∀ fi' p', ({ ep with peers := (setPeer ep.peers { p with timer := none }).filter fun p => p.fi ≠ fi } : Ep).peer? fi' = some p' →
        ep.peer? fi' = some p' := by
      intro fi' p' hp'
      have hx : fi' ≠ fi := by
        rintro rfl
        have h1 := List.find?_some hp'
        have h2 := List.mem_of_find?_eq_some hp'
        simp only [List.mem_filter] at h2
        simp_all
      have : ({ ep with peers := setPeer ep.peers { p with timer := none } } : Ep).peer? fi' = some p' := by
        unfold Ep.peer? at hp' ⊢
        dsimp only at hp' ⊢
        rw [List.find?_filter] at hp'
        rw [← hp']
        congr 1
        funext a
        by_cases ha : a.fi = fi'
        · simp [ha, hx]
        · simp [ha]
      rcases hmid fi' p' this with ⟨hx', -⟩ | ⟨-, hy⟩
      · exact absurd hx' hx
      · exact hy
    exact ⟨[], rfl, rfl, .inl rfl, fun hc => hc, fun fi' p' d hp' hd => .inl ⟨p', hfil _ _ hp', hd, by simp⟩,
      fun fi' p' hp' hs' ht' => .inl ⟨p', hfil _ _ hp', hs', ht', by simp⟩⟩

/-- One event of a history: as above, apart from the passage of time. -/
theorem step_waits {op : Op} {ep ep' : Ep} (h : op.step ep = .ok ep') (hop : ∀ ms, op ≠ .advance ms) : Waits ep ep' := by
  cases op with
  | app a => exact run_waits a _ _ h
  | rx => exact rxDatagram_waits h
  | advance ms => exact absurd rfl (hop ms)
  | reqTimer id io f => exact reqTimer_waits (run_waits f) h
  | respTimer id =>
    replace h : ep.respTimer id = .ok ep' := h
    unfold Ep.respTimer at h
    split at h
    · cases h; exact .refl _
    split at h
    · cases h; exact .refl _
    split at h
    · cases h
    · exact queueDel_waits h
  | peerTimer fi io => exact peerTimer_waits h

end Verif
