/-
CP peers: what holds of them after every history.
-/
import Verif.EndpointUse

namespace Verif

/-! ### Peers -/

theorem peer?_fi {ep : Ep} {fi p} (h : ep.peer? fi = some p) : p.fi = fi := by
  simpa using List.find?_some h

theorem find_setPeer (ps : List Peer) (q : Peer) (fi : Nat) :
    (setPeer ps q).find? (fun p => p.fi = fi) =
      if fi = q.fi then (ps.find? fun p => p.fi = fi).map fun _ => q else ps.find? fun p => p.fi = fi := by
  induction ps with
  | nil => simp [setPeer]
  | cons p ps ih =>
    simp only [setPeer, List.map_cons] at ih ⊢
    by_cases hf : fi = q.fi
    · subst hf
      rw [if_pos rfl] at ih ⊢
      by_cases hp : p.fi = q.fi
      · simp [hp]
      · rw [if_neg hp, List.find?_cons_of_neg (by simpa using hp), List.find?_cons_of_neg (by simpa using hp), ih]
    · rw [if_neg hf] at ih ⊢
      by_cases hp : p.fi = q.fi
      · rw [if_pos hp, List.find?_cons_of_neg (by simpa using fun h => hf h.symm),
          List.find?_cons_of_neg (by simpa using fun h => hf (h.symm.trans hp)), ih]
      · rw [if_neg hp]
        by_cases hpf : p.fi = fi
        · rw [List.find?_cons_of_pos (by simpa using hpf), List.find?_cons_of_pos (by simpa using hpf)]
        · rw [List.find?_cons_of_neg (by simpa using hpf), List.find?_cons_of_neg (by simpa using hpf), ih]

theorem setPeer_setPeer (ps : List Peer) (a b : Peer) (h : a.fi = b.fi) : setPeer (setPeer ps a) b = setPeer ps b := by
  simp only [setPeer, List.map_map]
  apply List.map_congr_left
  intro x _
  simp only [Function.comp]
  by_cases hx : x.fi = a.fi
  · rw [if_pos hx, if_pos h, if_pos (hx.trans h)]
  · rw [if_neg hx]

/-! ### Events -/

/-- Not about a CP peer. -/
def plain : Event → Bool
  | .peer .. => false
  | _ => true

theorem peerStates_plain {fi} : ∀ {l : List Event}, (∀ e ∈ l, plain e = true) → ∀ log, peerStates fi (l ++ log) = peerStates fi log
  | [], _, _ => rfl
  | e :: l, h, log => by
    have ih := peerStates_plain (fi := fi) (l := l) (fun x hx => h x (.tail _ hx)) log
    have := h e (.head _)
    rw [List.cons_append]
    cases e <;> first | exact ih | cases this

theorem cbIn_plain {fi} : ∀ {l : List Event}, (∀ e ∈ l, plain e = true) → ∀ log, cbIn fi (l ++ log) = cbIn fi log
  | [], _, _ => rfl
  | e :: l, h, log => by
    have ih := cbIn_plain (fi := fi) (l := l) (fun x hx => h x (.tail _ hx)) log
    have := h e (.head _)
    rw [List.cons_append]
    cases e <;> first | exact ih | cases this

theorem AssocReqOf.mono {fi r id seq log} (h : AssocReqOf fi r id seq log) (l) : AssocReqOf fi r id seq (l ++ log) := by
  obtain ⟨n1, t1, q, h, h'⟩ := h
  exact ⟨n1, t1, q, List.mem_append_right _ h, h'⟩

theorem Excused.mono {fi log} (h : Excused fi log) (l) : Excused fi (l ++ log) := by
  obtain ⟨id, r, seq, h1, h2⟩ := h
  exact ⟨id, r, seq, h1.mono l, List.mem_append_right _ h2⟩

theorem Accepted.mono {fi r log} (h : Accepted fi r log) (l) : Accepted fi r (l ++ log) := by
  obtain ⟨id, seq, k, m, t, h1, h2, h3, h4⟩ := h
  exact ⟨id, seq, k, m, t, h1.mono l, List.mem_append_right _ h2, List.mem_append_right _ h3, h4⟩

/-- An event after which CbOk still holds. -/
def calm : Event → Bool
  | .peer _ (.assocCb _) => false
  | .peer _ (.state .associated) => false
  | _ => true

theorem CbOk.cons {log e} (h : CbOk log) (he : calm e = true) : CbOk (e :: log) := by
  refine ⟨?_, ?_⟩
  · intro a fi b l hx
    cases a with
    | nil => cases hx; cases he
    | cons y a => cases hx; exact h.only a fi b l rfl
  · intro a fi l hx hc
    cases a with
    | nil => cases hx; cases he
    | cons y a =>
      cases hx
      obtain ⟨a', rfl⟩ := h.always a fi l rfl hc
      exact ⟨e :: a', rfl⟩

theorem CbOk.append {log} (h : CbOk log) : ∀ l : List Event, (∀ e ∈ l, calm e = true) → CbOk (l ++ log)
  | [], _ => h
  | e :: l, hl => (h.append l fun x hx => hl x (.tail _ hx)).cons (hl e (.head _))

theorem plain_calm {e} (h : plain e = true) : calm e = true := by
  cases e <;> first | rfl | cases h

/-- A CP peer becomes associated, and assoc_cb() is called if there is one. -/
theorem CbOk.associated {log fi} (h : CbOk log) :
    CbOk ((if cbIn fi log then [.peer fi (.assocCb true)] else []) ++ .peer fi (.state .associated) :: log) := by
  cases hc : cbIn fi log with
  | true =>
    rw [if_pos rfl]
    refine ⟨?_, ?_⟩
    · intro a f b l hx
      cases a with
      | nil => cases hx; exact ⟨rfl, log, rfl, hc⟩
      | cons y a =>
        cases a with
        | nil => cases hx
        | cons z a => cases hx; exact h.only a f b l rfl
    · intro a f l hx hf
      cases a with
      | nil => cases hx
      | cons y a =>
        cases a with
        | nil => cases hx; exact ⟨[], rfl⟩
        | cons z a =>
          cases hx
          obtain ⟨a', rfl⟩ := h.always a f l rfl hf
          exact ⟨_ :: _ :: a', rfl⟩
  | false =>
    rw [if_neg (by simp)]
    refine ⟨?_, ?_⟩
    · intro a f b l hx
      cases a with
      | nil => cases hx
      | cons y a => cases hx; exact h.only a f b l rfl
    · intro a f l hx hf
      cases a with
      | nil => cases hx; rw [hc] at hf; cases hf
      | cons y a =>
        cases hx
        obtain ⟨a', rfl⟩ := h.always a f l rfl hf
        exact ⟨_ :: a', rfl⟩

/-! ### The invariant -/

/-- The CP peer that has sent message `id` as Association Setup Request. -/
def owner : List Event → Nat → Option Nat
  | [], _ => none
  | .passed i _ _ q :: l, id => owner l id <|> if i = id ∧ q.ctx.respCb = some Cb.assoc then q.ctx.peerFi else none
  | _ :: l, id => owner l id

/-- The pending request is an Association Setup Request of the CP peer `fi`. -/
def AssocEntry (log : List Event) (fi : Nat) (e : QEntry) : Prop := owner log e.id = some fi

/-- Nothing was passed. -/
def unpassed : Event → Bool
  | .passed .. => false
  | _ => true

theorem dull_unpassed {e} (h : dull e = true) : unpassed e = true := by
  cases e <;> first | rfl | cases h

theorem owner_append {l : List Event} (h : ∀ e ∈ l, unpassed e = true) (log id) : owner (l ++ log) id = owner log id := by
  induction l with
  | nil => rfl
  | cons e l ih =>
    have := ih fun x hx => h x (.tail _ hx)
    have he := h e (.head _)
    rw [List.cons_append]
    cases e <;> first | exact this | cases he

theorem owner_spec {log id fi} (h : owner log id = some fi) :
    ∃ n1 t1 q, .passed id n1 t1 q ∈ log ∧ q.ctx.respCb = some Cb.assoc ∧ q.ctx.peerFi = some fi := by
  induction log with
  | nil => cases h
  | cons e l ih =>
    have tail : owner l id = some fi → ∃ n1 t1 q, .passed id n1 t1 q ∈ e :: l ∧ q.ctx.respCb = some Cb.assoc ∧ q.ctx.peerFi = some fi := by
      intro h
      obtain ⟨n1, t1, q, h1, h2⟩ := ih h
      exact ⟨n1, t1, q, .tail _ h1, h2⟩
    cases e with
    | passed i n1 t1 q =>
      simp only [owner] at h
      cases ho : owner l id with
      | some f => rw [ho] at h; exact tail (by rw [ho]; exact h)
      | none =>
        rw [ho] at h
        simp only [HOrElse.hOrElse, OrElse.orElse, Option.orElse] at h
        split at h
        · rename_i hh
          obtain ⟨rfl, h2⟩ := hh
          exact ⟨n1, t1, q, .head _, h2, h⟩
        · cases h
    | _ => exact tail h

theorem owner_of {log id n1 t1 q fi} (h : .passed id n1 t1 q ∈ log) (ha : q.ctx.respCb = some Cb.assoc)
    (hf : q.ctx.peerFi = some fi)
    (one : ∀ n1 t1 q' n1' t1' q'', .passed id n1 t1 q' ∈ log → .passed id n1' t1' q'' ∈ log → q' = q'') :
    owner log id = some fi := by
  cases ho : owner log id with
  | some f =>
    obtain ⟨n1', t1', q', h1, h2, h3⟩ := owner_spec ho
    cases one _ _ _ _ _ _ h h1
    exact h3.symm.trans hf
  | none =>
    exfalso
    induction log with
    | nil => cases h
    | cons e l ih =>
      have hl : owner l id = none := by
        cases e with
        | passed i a b c =>
          simp only [owner] at ho
          cases hx : owner l id with
          | none => rfl
          | some f => rw [hx] at ho; cases ho
        | _ => exact ho
      rcases List.mem_cons.mp h with rfl | h
      · simp only [owner, hl] at ho
        simp [ha, hf] at ho
      · exact ih h (fun a b c a' b' c' x y => one a b c a' b' c' (.tail _ x) (.tail _ y)) hl

/-- An old message. -/
theorem owner_old {l : List Event} {log id} (h : ∀ i n1 t1 q, .passed i n1 t1 q ∈ l → i ≠ id) :
    owner (l ++ log) id = owner log id := by
  induction l with
  | nil => rfl
  | cons e l ih =>
    have := ih fun i n1 t1 q hx => h i n1 t1 q (.tail _ hx)
    rw [List.cons_append]
    cases e with
    | passed i n1 t1 q =>
      simp only [owner]
      rw [this, if_neg (fun hh => h i n1 t1 q (.head _) hh.1)]
      cases owner log id <;> rfl
    | _ => exact this

/-- `c`: the request whose resp_cb() has been called, which is going to be removed.  `x`: a CP peer that is
about to send a request. -/
structure PeerInv (c x : Option Nat) (ep : Ep) : Prop where
  called : ∀ id, c = some id → id < ep.nextId
  legal : ∀ fi, Follows taken (peerStates fi ep.log)
  state : ∀ fi p, ep.peer? fi = some p → (peerStates fi ep.log).head? = some p.state
  absent : ∀ fi, ep.peer? fi = none → ∀ e, .peer fi e ∉ ep.log
  known : ∀ fi p, ep.peer? fi = some p → p.state = .disabled ∨ p.state = .waitAssoc ∨ p.state = .waitRetry ∨ p.state = .associated
  timer : ∀ fi p, ep.peer? fi = some p → p.timer.isSome → p.state = .waitRetry
  retry : ∀ fi p, ep.peer? fi = some p → p.state = .waitRetry → p.timer.isSome ∨ .configT26 0 ∈ ep.log
  t26 : ep.t26 ≠ 0 ∨ .configT26 0 ∈ ep.log
  cb : ∀ fi p, ep.peer? fi = some p → p.hasCb = cbIn fi ep.log
  pend : ∀ fi, ∀ e ∈ ep.reqs, AssocEntry ep.log fi e → some e.id ≠ c →
    ∃ p, ep.peer? fi = some p ∧ p.state = .waitAssoc ∧ AssocReqOf fi p.remote e.id e.m.h.seq ep.log
  one : ∀ fi, ∀ e ∈ ep.reqs, ∀ e' ∈ ep.reqs, AssocEntry ep.log fi e → AssocEntry ep.log fi e' → some e.id ≠ c → some e'.id ≠ c → e.id = e'.id
  wait : ∀ fi p, ep.peer? fi = some p → p.state = .waitAssoc → some fi ≠ x →
    (∃ e ∈ ep.reqs, AssocEntry ep.log fi e ∧ some e.id ≠ c) ∨ Excused fi ep.log
  acc : ∀ fi p, ep.peer? fi = some p → p.state = .associated → Accepted fi p.remote ep.log
  cbok : CbOk ep.log

/-- Nothing happens to CP peers. -/
theorem PeerInv.frame {c c' x} {ep ep' : Ep} (h : PeerInv c x ep) (l : List Event) (hl : ep'.log = l ++ ep.log)
    (hp : ∀ e ∈ l, plain e = true) (hps : ep'.peers = ep.peers) (hc : ∀ id, c' = some id → id < ep'.nextId)
    (ht : ep'.t26 ≠ 0 ∨ .configT26 0 ∈ ep'.log)
    (hq : ∀ fi, ∀ e' ∈ ep'.reqs, AssocEntry ep'.log fi e' → some e'.id ≠ c' →
      ∃ e ∈ ep.reqs, AssocEntry ep.log fi e ∧ some e.id ≠ c ∧ e'.id = e.id ∧ e'.m.h = e.m.h)
    (hk : ∀ fi, ∀ e ∈ ep.reqs, AssocEntry ep.log fi e → some e.id ≠ c →
      (∃ e' ∈ ep'.reqs, AssocEntry ep'.log fi e' ∧ some e'.id ≠ c') ∨ Excused fi ep'.log) : PeerInv c' x ep' := by
  have hpr : ∀ fi, ep'.peer? fi = ep.peer? fi := fun fi => by unfold Ep.peer?; rw [hps]
  refine ⟨hc, ?_, ?_, ?_, ?_, ?_, ?_, ht, ?_, ?_, ?_, ?_, ?_, ?_⟩
  · intro fi; rw [hl, peerStates_plain hp]; exact h.legal fi
  · intro fi p hf; rw [hl, peerStates_plain hp]; exact h.state fi p (hpr fi ▸ hf)
  · intro fi hf e he
    rw [hl] at he
    rcases List.mem_append.mp he with he | he
    · cases hp _ he
    · exact h.absent fi (hpr fi ▸ hf) e he
  · intro fi p hf; exact h.known fi p (hpr fi ▸ hf)
  · intro fi p hf; exact h.timer fi p (hpr fi ▸ hf)
  · intro fi p hf hs
    rcases h.retry fi p (hpr fi ▸ hf) hs with h | h
    · exact .inl h
    · right; rw [hl]; exact List.mem_append_right _ h
  · intro fi p hf; rw [hl, cbIn_plain hp]; exact h.cb fi p (hpr fi ▸ hf)
  · intro fi e' he' ha hne
    obtain ⟨e, he, ha', hne', hi, hh⟩ := hq fi e' he' ha hne
    obtain ⟨p, h1, h2, h3⟩ := h.pend fi e he ha' hne'
    refine ⟨p, (hpr fi).trans h1, h2, ?_⟩
    rw [hl, hi, hh]
    exact h3.mono l
  · intro fi a ha b hb ha1 hb1 ha2 hb2
    obtain ⟨a', h1, h2, h3, h4, _⟩ := hq fi a ha ha1 ha2
    obtain ⟨b', k1, k2, k3, k4, _⟩ := hq fi b hb hb1 hb2
    rw [h4, k4]
    exact h.one fi a' h1 b' k1 h2 k2 h3 k3
  · intro fi p hf hs hx
    rcases h.wait fi p (hpr fi ▸ hf) hs hx with ⟨e, he, ha, hne⟩ | h
    · exact hk fi e he ha hne
    · right; rw [hl]; exact h.mono l
  · intro fi p hf hs
    rw [hl]
    exact (h.acc fi p (hpr fi ▸ hf) hs).mono l
  · rw [hl]
    exact h.cbok.append l fun e he => plain_calm (hp e he)

/-- Nothing happens to CP peers and pending requests. -/
theorem PeerInv.same {c x} {ep ep' : Ep} (h : PeerInv c x ep) (l : List Event) (hl : ep'.log = l ++ ep.log)
    (hp : ∀ e ∈ l, plain e = true) (hps : ep'.peers = ep.peers) (hn : ep.nextId ≤ ep'.nextId)
    (ht : ep'.t26 = ep.t26) (hq : ep'.reqs = ep.reqs) (ho : ∀ e ∈ ep.reqs, owner ep'.log e.id = owner ep.log e.id) :
    PeerInv c x ep' := by
  refine h.frame l hl hp hps (fun id hi => Nat.lt_of_lt_of_le (h.called id hi) hn) ?_ ?_ ?_
  · rcases h.t26 with h | h
    · exact .inl (ht ▸ h)
    · right; rw [hl]; exact List.mem_append_right _ h
  · intro fi e he ha hne
    rw [hq] at he
    exact ⟨e, he, (ho e he).symm.trans ha, hne, rfl, rfl⟩
  · intro fi e he ha hne
    exact .inl ⟨e, hq ▸ he, (ho e he).trans ha, hne⟩

/-- A CP peer changes to another state. -/
theorem PeerInv.chg {c c' x x'} {ep ep' : Ep} (h : PeerInv c x ep) {fi p new} (hp : ep.peer? fi = some p)
    (hper : p.state.permits new = true) (hleave : p.state ≠ .associated)
    (hps : ep'.peers = setPeer ep.peers (p.enter new ep.now ep.t26))
    (hl : ep'.log = (if new = .associated ∧ p.hasCb = true then [.peer fi (.assocCb true)] else []) ++ .peer fi (.state new) :: ep.log)
    (hq : ep'.reqs = ep.reqs) (ht : ep'.t26 = ep.t26) (hn : ep'.nextId = ep.nextId)
    (hnew : new = .waitAssoc ∨ new = .waitRetry ∨ new = .associated)
    (hc : c = none ∨ c' = c) (hc' : ∀ id, c' = some id → id < ep.nextId)
    (hmine : ∀ e ∈ ep.reqs, AssocEntry ep.log fi e → some e.id = c')
    (hother : ∀ e ∈ ep.reqs, some e.id = c' → c' = c ∨ AssocEntry ep.log fi e)
    (hx : x = none ∨ x = some fi) (hx' : new = .waitAssoc → x' = some fi)
    (hacc : new = .associated → Accepted fi p.remote ep.log) : PeerInv c' x' ep' := by
  have hfi := peer?_fi hp
  have htaken : (p.state, new) ∈ taken := by
    have hk := h.known fi p hp
    generalize p.state = st at hk hper hleave
    rcases hk with rfl | rfl | rfl | rfl <;> rcases hnew with rfl | rfl | rfl <;>
      first | (exact absurd rfl hleave) | (cases hper; done) | (simp [taken]; done)
  have hpr : ∀ f, ep'.peer? f = if f = fi then some (p.enter new ep.now ep.t26) else ep.peer? f := by
    intro f
    unfold Ep.peer?
    rw [hps, find_setPeer]
    have : (p.enter new ep.now ep.t26).fi = fi := hfi
    rw [this]
    by_cases hf : f = fi
    · rw [if_pos hf, if_pos hf, hf]
      have hp' : List.find? (fun p => decide (p.fi = fi)) ep.peers = some p := hp
      rw [hp']
      rfl
    · rw [if_neg hf, if_neg hf]
  have mine : ∀ {q}, ep'.peer? fi = some q → q = p.enter new ep.now ep.t26 := by
    intro q hq
    rw [hpr, if_pos rfl] at hq
    exact (Option.some.inj hq).symm
  have other : ∀ {f}, f ≠ fi → ep'.peer? f = ep.peer? f := fun hf => by rw [hpr, if_neg hf]
  obtain ⟨l, hl2, hl3⟩ : ∃ l, ep'.log = l ++ ep.log ∧ ∀ f, f ≠ fi →
      peerStates f ep'.log = peerStates f ep.log ∧ cbIn f ep'.log = cbIn f ep.log := by
    refine ⟨(if new = .associated ∧ p.hasCb = true then [.peer fi (.assocCb true)] else []) ++ [.peer fi (.state new)],
      by rw [hl]; simp, fun f hf => ?_⟩
    rw [hl]
    split <;> simp [peerStates, cbIn, Ne.symm hf]
  have hst : peerStates fi ep'.log = new :: peerStates fi ep.log := by
    rw [hl]
    split <;> simp [peerStates]
  have hcb : cbIn fi ep'.log = cbIn fi ep.log := by
    rw [hl]
    split <;> simp [cbIn]
  have hpl : ∀ {e}, plain e = true → e ∈ ep'.log → e ∈ ep.log := by
    intro e he hm
    rw [hl] at hm
    rcases List.mem_append.mp hm with hm | hm
    · split at hm
      · cases List.mem_singleton.mp hm; cases he
      · cases hm
    · rcases List.mem_cons.mp hm with rfl | hm
      · cases he
      · exact hm
  have hown : ∀ id, owner ep'.log id = owner ep.log id := by
    intro id
    rw [hl]
    split <;> rfl
  have hAE : ∀ {f e}, AssocEntry ep'.log f e → AssocEntry ep.log f e := fun ha => (hown _).symm.trans ha
  have hT : ep'.t26 ≠ 0 ∨ .configT26 0 ∈ ep'.log := by
    rcases h.t26 with h | h
    · exact .inl (ht ▸ h)
    · right; rw [hl2]; exact List.mem_append_right _ h
  have hcc : ∀ {id}, some id ≠ c' → some id ≠ c := by
    intro id hne
    rcases hc with rfl | rfl
    · simp
    · exact hne
  refine ⟨fun id hi => by rw [hn]; exact hc' id hi, ?_, ?_, ?_, ?_, ?_, ?_, hT, ?_, ?_, ?_, ?_, ?_, ?_⟩
  · intro f
    by_cases hf : f = fi
    · subst hf
      rw [hst]
      have h1 := h.legal f
      have h2 := h.state f p hp
      cases hs : peerStates f ep.log with
      | nil => rw [hs] at h2; cases h2
      | cons s l =>
        rw [hs] at h1 h2
        cases h2
        exact ⟨htaken, h1⟩
    · rw [(hl3 f hf).1]; exact h.legal f
  · intro f q hq
    by_cases hf : f = fi
    · subst hf
      rw [mine hq, hst]
      rfl
    · rw [(hl3 f hf).1]; exact h.state f q (other hf ▸ hq)
  · intro f hf e he
    have hne : f ≠ fi := by
      rintro rfl
      rw [hpr, if_pos rfl] at hf
      cases hf
    rw [hl] at he
    refine h.absent f (other hne ▸ hf) e ?_
    rcases List.mem_append.mp he with he | he
    · split at he
      · cases List.mem_singleton.mp he; exact absurd rfl hne
      · cases he
    · rcases List.mem_cons.mp he with he | he
      · cases he; exact absurd rfl hne
      · exact he
  · intro f q hq
    by_cases hf : f = fi
    · subst hf
      rw [mine hq]
      rcases hnew with rfl | rfl | rfl
      · exact .inr (.inl rfl)
      · exact .inr (.inr (.inl rfl))
      · exact .inr (.inr (.inr rfl))
    · exact h.known f q (other hf ▸ hq)
  · intro f q hq hs
    by_cases hf : f = fi
    · subst hf
      rw [mine hq] at hs ⊢
      unfold Peer.enter at hs ⊢
      dsimp only at hs ⊢
      split at hs
      · rename_i hh; exact hh.1
      · cases hs
    · exact h.timer f q (other hf ▸ hq) hs
  · intro f q hq hs
    by_cases hf : f = fi
    · subst hf
      rw [mine hq] at hs ⊢
      unfold Peer.enter at hs ⊢
      dsimp only at hs ⊢
      rcases h.t26 with h | h
      · left; rw [if_pos ⟨hs, h⟩]; rfl
      · right; rw [hl2]; exact List.mem_append_right _ h
    · rcases h.retry f q (other hf ▸ hq) hs with h | h
      · exact .inl h
      · right; rw [hl2]; exact List.mem_append_right _ h
  · intro f q hq
    by_cases hf : f = fi
    · subst hf
      rw [mine hq, hcb]
      exact h.cb f p hp
    · rw [(hl3 f hf).2]; exact h.cb f q (other hf ▸ hq)
  · intro f e he ha hne
    rw [hq] at he
    by_cases hf : f = fi
    · subst hf
      exact absurd (hmine e he (hAE ha)) hne
    · obtain ⟨q, h1, h2, h3⟩ := h.pend f e he (hAE ha) (hcc hne)
      refine ⟨q, (other hf).trans h1, h2, ?_⟩
      rw [hl2]
      exact h3.mono l
  · intro f a ha b hb ha1 hb1 ha2 hb2
    rw [hq] at ha hb
    exact h.one f a ha b hb (hAE ha1) (hAE hb1) (hcc ha2) (hcc hb2)
  · intro f q hq2 hs hne
    by_cases hf : f = fi
    · subst hf
      rw [mine hq2] at hs
      exact absurd (hx' hs).symm hne
    · have hnx : some f ≠ x := by
        rcases hx with rfl | rfl
        · simp
        · simpa using hf
      rcases h.wait f q (other hf ▸ hq2) hs hnx with ⟨e, he, ha, hne'⟩ | h
      · left
        rw [hq]
        refine ⟨e, he, (hown _).trans ha, ?_⟩
        intro hce
        rcases hother e he hce with hh | hh
        · rw [hh] at hce; exact hne' hce
        · exact hf (Option.some.inj (ha.symm.trans hh))
      · right; rw [hl2]; exact h.mono l
  · intro f q hq2 hs
    by_cases hf : f = fi
    · subst hf
      rw [mine hq2] at hs ⊢
      rw [hl2]
      exact (hacc hs).mono l
    · rw [hl2]; exact (h.acc f q (other hf ▸ hq2) hs).mono l
  · rw [hl]
    by_cases hA : new = .associated
    · subst hA
      have := h.cbok.associated (fi := fi)
      rw [← h.cb fi p hp] at this
      simpa using this
    · rw [if_neg (fun hh => hA hh.1)]
      refine h.cbok.cons ?_
      rcases hnew with rfl | rfl | rfl
      · rfl
      · rfl
      · exact absurd rfl hA

/-- osmo_pfcp_cp_peer_set_associated_cb() -/
theorem PeerInv.setAssocCb {c x} {ep : Ep} (h : PeerInv c x ep) (fi b) : PeerInv c x (ep.setAssocCb fi b) := by
  unfold Ep.setAssocCb
  cases hp : ep.peer? fi with
  | none => exact h
  | some p =>
    dsimp only
    have hfi := peer?_fi hp
    have hpr : ∀ f, (({ ep with peers := setPeer ep.peers { p with hasCb := b } } : Ep).note (.peer fi (.cbSet b))).peer? f =
        if f = fi then some { p with hasCb := b } else ep.peer? f := by
      intro f
      unfold Ep.peer? Ep.note
      dsimp only
      rw [find_setPeer]
      dsimp only
      rw [hfi]
      by_cases hf : f = fi
      · rw [if_pos hf, if_pos hf, hf]
        have hp' : List.find? (fun p => decide (p.fi = fi)) ep.peers = some p := hp
        rw [hp']
        rfl
      · rw [if_neg hf, if_neg hf]
    -- the old peer, with the same state
    have old : ∀ {f q}, (({ ep with peers := setPeer ep.peers { p with hasCb := b } } : Ep).note (.peer fi (.cbSet b))).peer? f = some q →
        ∃ q0, ep.peer? f = some q0 ∧ q.state = q0.state ∧ q.timer = q0.timer ∧ q.remote = q0.remote := by
      intro f q hq
      rw [hpr] at hq
      split at hq
      · rename_i hf
        cases hq
        exact ⟨p, hf ▸ hp, rfl, rfl, rfl⟩
      · exact ⟨q, hq, rfl, rfl, rfl⟩
    have new : ∀ {f q}, ep.peer? f = some q →
        ∃ q0, (({ ep with peers := setPeer ep.peers { p with hasCb := b } } : Ep).note (.peer fi (.cbSet b))).peer? f = some q0 ∧
          q0.state = q.state ∧ q0.remote = q.remote := by
      intro f q hq
      rw [hpr]
      by_cases hf : f = fi
      · subst hf
        rw [hp] at hq
        cases hq
        rw [if_pos rfl]
        exact ⟨_, rfl, rfl, rfl⟩
      · rw [if_neg hf]
        exact ⟨q, hq, rfl, rfl⟩
    have hst : ∀ f, peerStates f (.peer fi (.cbSet b) :: ep.log) = peerStates f ep.log := fun f => rfl
    have hlog : (({ ep with peers := setPeer ep.peers { p with hasCb := b } } : Ep).note (.peer fi (.cbSet b))).log =
      [.peer fi (.cbSet b)] ++ ep.log := rfl
    refine ⟨h.called, fun f => h.legal f, ?_, ?_, ?_, ?_, ?_, ?_, ?_, ?_, h.one, ?_, ?_, h.cbok.cons rfl⟩
    · intro f q hq
      obtain ⟨q0, h1, h2, _⟩ := old hq
      rw [h2]
      exact h.state f q0 h1
    · intro f hf e he
      rw [hpr] at hf
      split at hf
      · cases hf
      · rename_i hne
        refine h.absent f hf e ?_
        rcases List.mem_cons.mp he with he | he
        · cases he; exact absurd rfl hne
        · exact he
    · intro f q hq
      obtain ⟨q0, h1, h2, _⟩ := old hq
      rw [h2]
      exact h.known f q0 h1
    · intro f q hq
      obtain ⟨q0, h1, h2, h3, _⟩ := old hq
      rw [h2, h3]
      exact h.timer f q0 h1
    · intro f q hq hs
      obtain ⟨q0, h1, h2, h3, _⟩ := old hq
      rw [h3]
      rcases h.retry f q0 h1 (h2 ▸ hs) with h | h
      · exact .inl h
      · exact .inr (.tail _ h)
    · rcases h.t26 with h | h
      · exact .inl h
      · exact .inr (.tail _ h)
    · intro f q hq
      rw [hpr] at hq
      show q.hasCb = if fi = f then b else cbIn f ep.log
      split at hq
      · rename_i hf
        cases hq
        rw [if_pos hf.symm]
      · rename_i hf
        rw [if_neg (fun h => hf h.symm)]
        exact h.cb f q hq
    · intro f e he ha hne
      obtain ⟨q, h1, h2, h3⟩ := h.pend f e he ha hne
      obtain ⟨q0, k1, k2, k3⟩ := new h1
      refine ⟨q0, k1, k2.trans h2, ?_⟩
      rw [k3]
      exact h3.mono [_]
    · intro f q hq hs hx
      obtain ⟨q0, h1, h2, _⟩ := old hq
      rcases h.wait f q0 h1 (h2 ▸ hs) hx with h | h
      · exact .inl h
      · exact .inr (h.mono [_])
    · intro f q hq hs
      obtain ⟨q0, h1, h2, _, h4⟩ := old hq
      rw [h4]
      exact (h.acc f q0 h1 (h2 ▸ hs)).mono [_]

theorem peerStates_absent {fi} : ∀ {log : List Event}, (∀ e, .peer fi e ∉ log) → peerStates fi log = [.disabled]
  | [], _ => rfl
  | e :: log, h => by
    have ih := peerStates_absent (fi := fi) (log := log) fun x hx => h x (.tail _ hx)
    cases e with
    | peer f pe =>
      cases pe with
      | state s =>
        simp only [peerStates]
        rw [if_neg, ih]
        rintro rfl
        exact h _ (.head _)
      | _ => exact ih
    | _ => exact ih

theorem cbIn_absent {fi} : ∀ {log : List Event}, (∀ e, .peer fi e ∉ log) → cbIn fi log = false
  | [], _ => rfl
  | e :: log, h => by
    have ih := cbIn_absent (fi := fi) (log := log) fun x hx => h x (.tail _ hx)
    cases e with
    | peer f pe =>
      cases pe with
      | cbSet s =>
        simp only [cbIn]
        rw [if_neg, ih]
        rintro rfl
        exact h _ (.head _)
      | _ => exact ih
    | _ => exact ih

/-- osmo_pfcp_cp_peer_alloc() -/
theorem PeerInv.newPeer {c x} {ep : Ep} (h : PeerInv c x ep) (fi r) : PeerInv c x (ep.newPeer fi r) := by
  unfold Ep.newPeer
  cases hp : ep.peer? fi with
  | some p => exact h
  | none =>
    dsimp only
    have hpr : ∀ f, ({ ep with peers := { fi := fi, remote := r } :: ep.peers } : Ep).peer? f =
        if f = fi then some { fi := fi, remote := r } else ep.peer? f := by
      intro f
      unfold Ep.peer?
      dsimp only
      by_cases hf : f = fi
      · subst hf; rw [if_pos rfl, List.find?_cons_of_pos (by simp)]
      · rw [if_neg hf, List.find?_cons_of_neg (by simpa using fun h => hf h.symm)]
    have hab := h.absent fi hp
    have some_of : ∀ {f q}, ({ ep with peers := { fi := fi, remote := r } :: ep.peers } : Ep).peer? f = some q →
        f = fi ∧ q = { fi := fi, remote := r } ∨ f ≠ fi ∧ ep.peer? f = some q := by
      intro f q hq
      rw [hpr] at hq
      split at hq
      · rename_i hf; cases hq; exact .inl ⟨hf, rfl⟩
      · rename_i hf; exact .inr ⟨hf, hq⟩
    refine ⟨h.called, h.legal, ?_, ?_, ?_, ?_, ?_, h.t26, ?_, ?_, h.one, ?_, ?_, h.cbok⟩
    · intro f q hq
      rcases some_of hq with ⟨rfl, rfl⟩ | ⟨_, hq⟩
      · show (peerStates f ep.log).head? = _
        rw [peerStates_absent hab]; rfl
      · exact h.state f q hq
    · intro f hf
      rw [hpr] at hf
      split at hf
      · cases hf
      · exact h.absent f hf
    · intro f q hq
      rcases some_of hq with ⟨rfl, rfl⟩ | ⟨_, hq⟩
      · exact .inl rfl
      · exact h.known f q hq
    · intro f q hq
      rcases some_of hq with ⟨rfl, rfl⟩ | ⟨_, hq⟩
      · intro h; cases h
      · exact h.timer f q hq
    · intro f q hq
      rcases some_of hq with ⟨rfl, rfl⟩ | ⟨_, hq⟩
      · intro h; cases h
      · exact h.retry f q hq
    · intro f q hq
      rcases some_of hq with ⟨rfl, rfl⟩ | ⟨_, hq⟩
      · exact (cbIn_absent hab).symm
      · exact h.cb f q hq
    · intro f e he ha hne
      obtain ⟨p, h1, h2⟩ := h.pend f e he ha hne
      refine ⟨p, ?_, h2⟩
      rw [hpr, if_neg, h1]
      rintro rfl
      rw [hp] at h1
      cases h1
    · intro f q hq
      rcases some_of hq with ⟨rfl, rfl⟩ | ⟨_, hq⟩
      · intro h; cases h
      · exact h.wait f q hq
    · intro f q hq
      rcases some_of hq with ⟨rfl, rfl⟩ | ⟨_, hq⟩
      · intro h; cases h
      · exact h.acc f q hq

theorem PeerInv.init (cfg n1 t1 keepResp time now) : PeerInv none none (Ep.create cfg n1 t1 keepResp time now) := by
  have hp : ∀ fi, (Ep.create cfg n1 t1 keepResp time now).peer? fi = none := fun _ => rfl
  refine ⟨by simp, fun _ => rfl, ?_, ?_, ?_, ?_, ?_, .inl (by simp [Ep.create]), ?_, ?_, ?_, ?_, ?_, ?_⟩
  · intro fi p h; rw [hp] at h; cases h
  · intro fi _ e h
    simp [Ep.create] at h
  · intro fi p h; rw [hp] at h; cases h
  · intro fi p h; rw [hp] at h; cases h
  · intro fi p h; rw [hp] at h; cases h
  · intro fi p h; rw [hp] at h; cases h
  · intro fi e h; cases h
  · intro fi e h; cases h
  · intro fi p h; rw [hp] at h; cases h
  · intro fi p h; rw [hp] at h; cases h
  · refine CbOk.cons (log := []) ⟨?_, ?_⟩ rfl
    · intro a fi b l h; cases a <;> cases h
    · intro a fi l h; cases a <;> cases h

theorem UseInv.init (cfg n1 t1 keepResp time now) : UseInv [] [] (Ep.create cfg n1 t1 keepResp time now) := by
  refine ⟨⟨?_, ?_, by simp [Ep.create, live], by simp [Ep.create], ?_, by simp, ?_, ?_⟩, by simp, ?_, ?_⟩
  · intro id n1 t1 m h; simp [Ep.create] at h
  · intro id n1 t1 m _ _ _ h; simp [Ep.create] at h
  · intro e h; simp [Ep.create] at h
  · intro u; simp [Ep.create, qsum, tsum]
  · intro u; simp [Ep.create, holders, live, lostUses]
  · intro e h; simp [Ep.create] at h
  · intro id _; simp [Ep.create, returnedIn]

theorem UseInv.queuedOld {T R} {ep : Ep} (h : UseInv T R ep) : ∀ e ∈ ep.reqs ++ ep.resps, e.id < ep.nextId := by
  intro e he
  obtain ⟨m, h1, _⟩ := h.queued e he
  exact h.lt _ h1

/-! ### Both invariants, for all functions -/

/-- Both. -/
structure Both (T : List (Nat × Ctx)) (R : List (Nat × Nat)) (c x : Option Nat) (ep : Ep) : Prop where
  use : UseInv T R ep
  peer : PeerInv c x ep

/-- Events that matter for neither. -/
def idle (e : Event) : Bool := dull e && plain e

theorem Both.same {T R c x} {ep ep' : Ep} (h : Both T R c x ep) (l : List Event) (hl : ep'.log = l ++ ep.log)
    (hp : ∀ e ∈ l, idle e = true) (hps : ep'.peers = ep.peers) (hn : ep.nextId ≤ ep'.nextId) (ht : ep'.t26 = ep.t26)
    (hq : ep'.reqs = ep.reqs) (hs : ep'.resps = ep.resps) (hu : ep'.use = ep.use) : Both T R c x ep' := by
  have h1 : ∀ e ∈ l, dull e = true := fun e he => by have := hp e he; simp [idle] at this; exact this.1
  have h2 : ∀ e ∈ l, plain e = true := fun e he => by have := hp e he; simp [idle] at this; exact this.2
  exact ⟨h.use.logs l hl h1 hn hq hs hu, h.peer.same l hl h2 hps hn ht hq
    fun e _ => by rw [hl]; exact owner_append (fun x hx => dull_unpassed (h1 x hx)) _ _⟩

theorem Both.note {T R c x} {ep : Ep} (h : Both T R c x ep) {e} (he : idle e = true) : Both T R c x (ep.note e) :=
  h.same [e] rfl (by simpa using he) rfl (Nat.le_refl _) rfl rfl rfl rfl

theorem Both.busy {T R c x} {ep : Ep} (h : Both T R c x ep) (b) : Both T R c x { ep with busy := b } :=
  h.same [] rfl (by simp) rfl (Nat.le_refl _) rfl rfl rfl rfl

theorem Both.sendMsg {T R c x} {ep : Ep} {why id m io r} (h : Both T R c x ep) (hs : ep.sendMsg why id m io = .ok r) :
    Both T R c x r.1 := by
  rcases sendMsg_ok hs with ⟨o, _, _, _, rfl⟩ | ⟨l, e, enc, hl, -, rfl⟩
  · exact h.note rfl
  · refine h.same l rfl ?_ rfl (Nat.le_refl _) rfl rfl rfl rfl
    rcases hl with ⟨rfl, _⟩ | ⟨o, _, rfl⟩
    · simp
    · simp [idle, dull, plain]

/-- What a callback of the application keeps. -/
def Keeps (f : Ep → Res Ep) : Prop := ∀ T R c ep ep', Both T R c none ep → f ep = .ok ep' → Both T R c none ep'

theorem begun_peers (ep : Ep) (m) : (ep.begun m).peers = ep.peers := by unfold Ep.begun; split <;> rfl
theorem begun_t26 (ep : Ep) (m) : (ep.begun m).t26 = ep.t26 := by unfold Ep.begun; split <;> rfl
theorem begun_use (ep : Ep) (m) : (ep.begun m).use = ep.use := by unfold Ep.begun; split <;> rfl

/-- The three ways in which osmo_pfcp_endpoint_tx() returns. -/
theorem tx_cases {ep ep' : Ep} {m io cb} (h : ep.tx m io cb = .ok ep') :
    ∃ ep1 o, (∃ l, ep1 = ((ep.begun m).note (.passed ep.nextId ep.n1 ep.t1 (ep.outgoing m))).logs l ∧ ∀ e ∈ l, idle e = true) ∧
    ((∃ ep2 ep3 e, ep1.failCb ep.nextId { ep.outgoing m with encoded := o } cb = .ok ep2 ∧
        ep2.releaseUses m.ctx.uses = .ok ep3 ∧
        ep' = (ep3.note (.freed ep.nextId)).note (.returned ep.nextId (some e))) ∨
     (∃ ep2, ep1.failCb ep.nextId { ep.outgoing m with encoded := o } cb = .ok ep2 ∧ ep' = ep2.note (.returned ep.nextId none)) ∨
     ep' = (ep1.enqueue ((ep.begun m).entry ep.nextId { ep.outgoing m with encoded := o })).note (.returned ep.nextId none)) := by
  rw [tx_eq] at h
  obtain ⟨⟨ep1, m1, rc⟩, h1, h⟩ := Res.bind_eq_ok h
  rcases sendMsg_ok h1 with ⟨o, ho, hs, -, hr⟩ | ⟨l, e, enc, hl, -, hr⟩
  · cases hr
    dsimp only at h
    refine ⟨_, some o, ⟨[.send .tx ep.nextId (ep.outgoing m).remote o true (ep.begun m).now], rfl, ?_⟩, .inr ?_⟩
    · intro e he
      cases List.mem_singleton.mp he
      rfl
    obtain ⟨ep2, h2, h⟩ := Res.bind_eq_ok h
    cases h
    unfold Ep.queueAdd at h2
    split at h2
    · exact .inl ⟨ep2, h2, rfl⟩
    · right
      simp only [outgoing_isResponse] at h2
      split at h2
      · rename_i hr
        cases h2
        simp [Ep.note, Ep.logs, Ep.enqueue, Ep.entry, hr]
      · rename_i hr
        cases h2
        simp [Ep.note, Ep.logs, Ep.enqueue, Ep.entry, hr]
  · cases hr
    dsimp only at h
    refine ⟨_, enc, ⟨l, rfl, ?_⟩, .inl ?_⟩
    · rcases hl with ⟨rfl, _⟩ | ⟨o, _, rfl⟩
      · simp
      · simp [idle, dull, plain]
    · obtain ⟨ep2, h2, h⟩ := Res.bind_eq_ok h
      obtain ⟨ep3, h3, h⟩ := Res.bind_eq_ok h
      cases h
      rw [outgoing_ctx] at h3
      exact ⟨ep2, ep3, e, h2, h3, rfl⟩

/-- resp_cb() is called or not. -/
theorem failCb_ok {ep ep' : Ep} {id m cb} (h : ep.failCb id m cb = .ok ep') :
    (∃ ep1, cb { ep.note (.respCb id none ep.now) with busy := id :: ep.busy } = .ok ep1 ∧ ep' = { ep1 with busy := ep.busy }) ∨
    ¬ (m.isResponse = false ∧ m.hasCb = true) ∧ ep' = ep := by
  unfold Ep.failCb at h
  split at h
  · obtain ⟨ep1, h1, h⟩ := Res.bind_eq_ok h
    cases h
    exact .inl ⟨ep1, h1, rfl⟩
  · rename_i hc
    cases h
    exact .inr ⟨by simpa using hc, rfl⟩

/-- A message is passed to osmo_pfcp_endpoint_tx(), and handed to the socket. -/
theorem Both.begin {T R c x} {ep ep1 : Ep} (h : Both T R c x ep) (m : PMsg) {l}
    (ha : m.ctx.respCb = some Cb.assoc → m.ctx.peerFi.isSome)
    (h1 : ep1 = (((ep.takeUses m.ctx.uses).begun m).note
      (.passed (ep.takeUses m.ctx.uses).nextId (ep.takeUses m.ctx.uses).n1 (ep.takeUses m.ctx.uses).t1
        ((ep.takeUses m.ctx.uses).outgoing m))).logs l) (hl : ∀ e ∈ l, idle e = true) :
    Both ((ep.nextId, m.ctx) :: T) R c x ep1 := by
  have h2 : Both ((ep.nextId, m.ctx) :: T) R c x (((ep.takeUses m.ctx.uses).begun m).note
      (.passed (ep.takeUses m.ctx.uses).nextId (ep.takeUses m.ctx.uses).n1 (ep.takeUses m.ctx.uses).t1
        ((ep.takeUses m.ctx.uses).outgoing m))) := by
    constructor
    · have := h.use.passed (ep' := ((ep.takeUses m.ctx.uses).begun m).note
        (.passed (ep.takeUses m.ctx.uses).nextId (ep.takeUses m.ctx.uses).n1 (ep.takeUses m.ctx.uses).t1
          ((ep.takeUses m.ctx.uses).outgoing m))) ((ep.takeUses m.ctx.uses).outgoing m) ep.n1 ep.t1
        (by simp [Ep.note, Ep.takeUses]) (by simp [Ep.note, Ep.takeUses]) (by simp [Ep.note, Ep.takeUses])
        (by simp [Ep.note, Ep.takeUses]) (by intro u; rw [outgoing_ctx]; simp [Ep.note, begun_use, Ep.takeUses])
        (by rw [outgoing_ctx]; exact ha)
      rwa [outgoing_ctx] at this
    · refine h.peer.same [_] (by simp [Ep.note, Ep.takeUses]; rfl) (by simp [plain]) ?_ ?_ ?_ ?_ ?_
      · simp [Ep.note, begun_peers, Ep.takeUses]
      · simp [Ep.note, Ep.takeUses]
      · simp [Ep.note, begun_t26, Ep.takeUses]
      · simp [Ep.note, Ep.takeUses]
      · intro e he
        have hlt := h.use.queuedOld e (List.mem_append_left _ he)
        simp only [Ep.note, begun_log]
        refine owner_old (l := [_]) ?_
        intro i n1 t1 q hx
        cases List.mem_singleton.mp hx
        exact fun hh => Nat.lt_irrefl _ (hh ▸ hlt)
  exact h2.same l (by rw [h1]; rfl) hl (by rw [h1]; rfl) (by rw [h1]; exact Nat.le_refl _) (by rw [h1]; rfl)
    (by rw [h1]; rfl) (by rw [h1]; rfl) (by rw [h1]; rfl)

/-- The end of a failed osmo_pfcp_endpoint_tx(). -/
theorem Both.lost {T R c x} {ep ep3 : Ep} {id ctx e} (h : Both ((id, ctx) :: T) R c x ep) (h3 : ep.releaseUses ctx.uses = .ok ep3) :
    Both T R c x ((ep3.note (.freed id)).note (.returned id (some e))) := by
  obtain ⟨rfl, -⟩ := releaseUses_ok h3
  have h2 : Both T R c x (({ ep with use := fun u => ep.use u - ctx.uses.count u } : Ep).note (.freed id)) :=
    ⟨h.use.freed rfl rfl rfl rfl (fun _ => rfl), h.peer.same [.freed id] rfl (by simp [plain]) rfl (Nat.le_refl _) rfl rfl fun _ _ => rfl⟩
  exact h2.note rfl

theorem Both.leaked {id ctx T R c x} {ep : Ep} (h : Both ((id, ctx) :: T) R c x ep) : Both T R c x (ep.note (.returned id none)) :=
  ⟨h.use.leaked, h.peer.same [_] rfl (by simp [plain]) rfl (Nat.le_refl _) rfl rfl fun _ _ => rfl⟩

theorem enqueue_reqs (ep : Ep) (e : QEntry) : ∀ x ∈ (ep.enqueue e).reqs, x = e ∨ x ∈ ep.reqs := by
  intro x hx
  unfold Ep.enqueue at hx
  split at hx
  · exact .inr hx
  · exact List.mem_cons.mp hx

theorem enqueue_mem (ep : Ep) (e : QEntry) : ∀ x ∈ ep.reqs, x ∈ (ep.enqueue e).reqs := by
  intro x hx
  unfold Ep.enqueue
  split
  · exact hx
  · exact .tail _ hx

/-- osmo_pfcp_endpoint_tx() by the application. -/
theorem Both.tx {T R c} {ep ep' : Ep} {m : PMsg} {io cb} (h : Both T R c none ep) (ha : m.ctx.respCb ≠ some Cb.assoc)
    (hcb : Keeps cb) (ht : (ep.takeUses m.ctx.uses).tx m io cb = .ok ep') : Both T R c none ep' := by
  obtain ⟨ep1, o, ⟨l, h1, hl⟩, hc⟩ := tx_cases ht
  have hb := h.begin m (fun hx => absurd hx ha) h1 hl
  have hid : (ep.takeUses m.ctx.uses).nextId = ep.nextId := rfl
  rw [hid] at hc
  have fail : ∀ {ep2}, ep1.failCb ep.nextId { (ep.takeUses m.ctx.uses).outgoing m with encoded := o } cb = .ok ep2 →
      Both ((ep.nextId, m.ctx) :: T) R c none ep2 := by
    intro ep2 h2
    rcases failCb_ok h2 with ⟨ep3, h3, rfl⟩ | ⟨_, rfl⟩
    · exact (hcb _ _ _ _ _ ((hb.note rfl).busy _) h3).busy _
    · exact hb
  rcases hc with ⟨ep2, ep3, e, h2, h3, rfl⟩ | ⟨ep2, h2, rfl⟩ | rfl
  · exact (fail h2).lost h3
  · exact (fail h2).leaked
  · refine ⟨?_, PeerInv.same (ep := Ep.enqueue _ _) ?_ [_] rfl (by simp [plain]) rfl (Nat.le_refl _) rfl rfl fun _ _ => rfl⟩
    · refine UseInv.enqueue (n1 := ep.n1) (t1 := ep.t1) (m := (ep.takeUses m.ctx.uses).outgoing m) ?_ ?_ rfl
      · have := hb.use
        simp only [Ep.entry, outgoing_ctx]
        exact this
      · rw [h1]
        simp [Ep.logs, Ep.note, Ep.entry, Ep.takeUses]
    · have hlog : (ep1.enqueue ((ep.takeUses m.ctx.uses).begun m |>.entry ep.nextId
          { (ep.takeUses m.ctx.uses).outgoing m with encoded := o })).log = ep1.log := by unfold Ep.enqueue; split <;> rfl
      refine hb.peer.frame [] ?_ (by simp) ?_ ?_ ?_ ?_ ?_
      · unfold Ep.enqueue; split <;> rfl
      · unfold Ep.enqueue; split <;> rfl
      · intro id hi
        have := hb.peer.called id hi
        unfold Ep.enqueue; split <;> exact this
      · have := hb.peer.t26
        unfold Ep.enqueue; split <;> exact this
      · intro fi e he hae hne
        rcases enqueue_reqs _ _ e he with rfl | he
        · exfalso
          apply ha
          rw [hlog] at hae
          obtain ⟨n1, t1, q, h5, h6, -⟩ := owner_spec hae
          have : Event.passed ep.nextId ep.n1 ep.t1 ((ep.takeUses m.ctx.uses).outgoing m) ∈ ep1.log := by
            rw [h1]
            simp [Ep.logs, Ep.note, Ep.takeUses]
          cases hb.use.one _ _ _ _ _ _ _ this h5
          rwa [outgoing_ctx] at h6
        · exact ⟨e, he, hlog ▸ hae, hne, rfl, rfl⟩
      · intro fi e he hae hne
        exact .inl ⟨e, enqueue_mem _ _ e he, hlog.symm ▸ hae, hne⟩

/-- The state of a peer, if nothing happened to peers. -/
theorem peer?_eq {ep ep' : Ep} (h : ep'.peers = ep.peers) (fi) : ep'.peer? fi = ep.peer? fi := by
  unfold Ep.peer?; rw [h]

theorem peerChg_some {ep : Ep} {fi p new} (hp : ep.peer? fi = some p) (h : p.state.permits new = true) :
    ep.peerChg fi new = { ep with peers := setPeer ep.peers (p.enter new ep.now ep.t26) }.note (.peer fi (.state new)) := by
  unfold Ep.peerChg
  rw [hp]
  dsimp only
  rw [if_pos h]

theorem peerChg_refused {ep : Ep} {fi p new} (hp : ep.peer? fi = some p) (h : p.state.permits new = false) :
    ep.peerChg fi new = ep := by
  unfold Ep.peerChg
  rw [hp]
  dsimp only
  rw [if_neg (by simp [h])]

theorem setPeer_peer? {ep ep' : Ep} {fi p q} (hp : ep.peer? fi = some p) (hq : q.fi = fi)
    (h : ep'.peers = setPeer ep.peers q) : ep'.peer? fi = some q := by
  unfold Ep.peer?
  rw [h, find_setPeer, if_pos hq.symm]
  have hp' : List.find? (fun p => decide (p.fi = fi)) ep.peers = some p := hp
  rw [hp']
  rfl

theorem Both.chg {T R c x} {ep : Ep} (h : Both T R c x ep) {ep' : Ep} {c' x' l} (hp : PeerInv c' x' ep') (hl : ep'.log = l ++ ep.log)
    (hd : ∀ e ∈ l, dull e = true) (hn : ep'.nextId = ep.nextId) (hq : ep'.reqs = ep.reqs) (hs : ep'.resps = ep.resps)
    (hu : ep'.use = ep.use) : Both T R c' x' ep' :=
  ⟨h.use.logs l hl hd (Nat.le_of_eq hn.symm) hq hs hu, hp⟩

end Verif
