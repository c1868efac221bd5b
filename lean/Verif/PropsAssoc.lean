/-
Properties of CP peers, and of networks: a CP peer is associated exactly if it was accepted (C61), and the procedure as a whole (C103).
-/
import Verif.PropsRoundTrip

namespace Verif

open Props

/-- Whoever was told that it is accepted has become associated. -/
structure Honoured (ep : Ep) : Prop where
  became : ∀ fi r id seq k t m, Event.respCb id (some k) t ∈ ep.log → AssocReqOf fi r id seq ep.log → Event.received k m ∈ ep.log →
    RequestAccepted m → Event.peer fi (.state .associated) ∈ ep.log

theorem respCb_isRx (id k t) : isRx (.respCb id (some k) t) = true := rfl

/-- An Association Setup Request for which resp_cb() was called earlier was sent earlier. -/
theorem AssocReqOf.earlier {ep ep' : Ep} (h' : Reached ep') {l} (hl : ep'.log = l ++ ep.log) {fi r id seq n1 t1 q}
    (ha : AssocReqOf fi r id seq ep'.log) (hp : Event.passed id n1 t1 q ∈ ep.log) : AssocReqOf fi r id seq ep.log := by
  obtain ⟨n2, t2, q2, hq, a1, a2, a3, a4, a5⟩ := ha
  have hp' : Event.passed id n1 t1 q ∈ ep'.log := by rw [hl]; exact List.mem_append_right _ hp
  cases h'.both.use.one _ _ _ _ _ _ _ hq hp'
  exact ⟨n1, t1, _, hp, a1, a2, a3, a4, a5⟩

theorem Honoured.old {ep ep' : Ep} (hh : Honoured ep) (h : Reached ep) (h' : Reached ep') {l} (hl : ep'.log = l ++ ep.log)
    {fi r id seq k t m} (h1 : Event.respCb id (some k) t ∈ ep.log) (h2 : AssocReqOf fi r id seq ep'.log) (h3 : Event.received k m ∈ ep'.log)
    (h4 : RequestAccepted m) : Event.peer fi (.state .associated) ∈ ep'.log := by
  obtain ⟨x, n1, t1, q, g1, g2, -⟩ := (C49_matching_partial h).1 _ _ _ h1
  have g1' : Event.received k x ∈ ep'.log := by rw [hl]; exact List.mem_append_right _ g1
  cases h'.numbered.one _ _ _ h3 g1'
  rw [hl]
  exact List.mem_append_right _ (hh.became fi r id seq k t _ h1 (h2.earlier h' hl g2) g1 h4)

theorem Honoured.rx {ep ep' : Ep} (hh : Honoured ep) (h : Reached ep) {m r} (hr : ep.handleRx m r = .ok ep') : Honoured ep' := by
  have h' : Reached ep' := .rx _ _ h hr
  obtain ⟨hb, tail, ⟨l, hl, hx⟩, b0, -, -, -, c1, c2, c3⟩ := h.rxEvents hr
  refine ⟨fun fi r0 id seq k t y e1 e2 e3 e4 => ?_⟩
  rw [hl] at e1
  rcases List.mem_append.1 e1 with e1 | e1
  rotate_left
  · exact hh.old h h' hl e1 e2 e3 e4
  rw [← mem_rxEvents rfl, hx] at e1
  have hc : ∀ e ∈ ctxEvent ep ep.nextId (if m.isResponse then (queueFind ep.reqs m).map (·.id) else none), ∃ a b, e = .setCtx a b := by
    intro e he
    unfold ctxEvent at he
    split at he
    · cases List.mem_singleton.1 he; exact ⟨_, _, rfl⟩
    · cases he
  simp only [List.mem_append, List.mem_cons] at e1
  rcases e1 with ((e1 | e1) | e1) | e1
  · cases e1
  · obtain ⟨_, _, _, _, _, h⟩ := b0 _ e1; cases h
  · obtain ⟨_, _, h⟩ := hc _ e1; cases h
  cases hm : m.isResponse with
  | false =>
    cases hf : queueFind ep.resps m with
    | none => rw [c1 (by simp [hm, hf])] at e1; simp at e1
    | some prev =>
      obtain ⟨o, _, ht, _⟩ := c3 prev hm hf
      rw [ht] at e1; simp at e1
  | true =>
    cases hf : queueFind ep.reqs m with
    | none => rw [c1 (by simp [hm, hf])] at e1; simp at e1
    | some prev =>
      obtain ⟨hp, -⟩ := queueFind_some hf
      have hid : prev.id = id ∧ ep.nextId = k := by
        rw [(c2 prev hm hf).1] at e1
        split at e1
        · split at e1 <;> simp at e1 <;> exact ⟨e1.1.symm, e1.2.1.symm⟩
        · simp at e1
      obtain ⟨rfl, rfl⟩ := hid
      obtain ⟨q, hq, -⟩ := h.both.use.queued prev (List.mem_append_left _ hp)
      obtain ⟨n1, t1, hq⟩ := live_passed hq
      have hrec : Event.received ep.nextId m ∈ ep'.log := by
        rw [hl]
        refine List.mem_append_left _ ?_
        rw [← mem_rxEvents rfl, hx]; simp
      cases h'.numbered.one _ _ _ e3 hrec
      obtain ⟨a, b, s, g1, ⟨-, rfl⟩ | ⟨g2, -⟩⟩ := assoc_evaluated h hr hm hp hf (e2.earlier h' hl hq)
      · rw [g1]; simp
      · exact absurd e4 g2

theorem Honoured.all {remote} : ∀ {l : List Rx} {rs} {ep ep' : Ep}, Honoured ep → Reached ep →
    ep.handleAll remote l rs = .ok ep' → Honoured ep'
  | [], _, ep, ep', hn, _, h => by cases h; exact hn
  | ⟨_, none⟩ :: l, rs, ep, ep', hn, h0, h => Honoured.all (l := l) hn h0 h
  | ⟨d, some ies⟩ :: l, rs, ep, ep', hn, h0, h => by
    obtain ⟨ep1, h1, h⟩ := Res.bind_eq_ok h
    exact Honoured.all (hn.rx h0 h1) (h0.rx _ _ h1) h

theorem Reached.honoured {ep : Ep} (h : Reached ep) : Honoured ep := by
  induction h with
  | create => exact ⟨fun _ _ _ _ _ _ _ h => (by cases List.mem_singleton.1 h)⟩
  | rx m r h hr ih => exact ih.rx h hr
  | @op ep ep' op h hs ih =>
    have h' : Reached ep' := .op _ h hs
    by_cases hl : op.isLocal
    · obtain ⟨l, h1, h2⟩ := Op.local_log hl hs
      refine ⟨fun fi r id seq k t m e1 e2 e3 e4 => ?_⟩
      rw [h1] at e1
      rcases List.mem_append.1 e1 with e1 | e1
      · cases h2 _ e1
      · exact ih.old h h' h1 e1 e2 e3 e4
    · cases op with
      | rx s d rs =>
        replace hs : ep.rxDatagram s d rs = .ok ep' := hs
        unfold Ep.rxDatagram at hs
        dsimp only at hs
        split at hs
        · cases hs; exact ih
        split at hs
        · cases hs
        obtain ⟨l, _, hs⟩ := Res.bind_eq_ok hs
        exact ih.all h hs
      | _ => exact absurd trivial hl

/-- "associated" is not left. -/
theorem Follows.stays {l : List PState} (h : Follows taken l) (hm : .associated ∈ l) : l.head? = some .associated := by
  induction l with
  | nil => cases hm
  | cons s l ih =>
    rcases List.mem_cons.1 hm with rfl | hm
    · rfl
    · cases l with
      | nil => cases hm
      | cons s' l =>
        obtain ⟨h1, h2⟩ := h
        have h3 := ih h2 hm
        simp only [List.head?_cons, Option.some.injEq] at h3
        subst h3
        exact absurd h1 (by cases s <;> decide)

theorem peerStates_cons (fi e) (log : List Event) : peerStates fi (e :: log) =
    match e with
    | .peer f (.state s) => if f = fi then s :: peerStates fi log else peerStates fi log
    | _ => peerStates fi log := by
  cases e <;> try rfl
  rename_i x; cases x <;> rfl

theorem mem_peerStates {fi s} : ∀ {log : List Event}, Event.peer fi (.state s) ∈ log → s ∈ peerStates fi log
  | [], h => by cases h
  | e :: log, h => by
    rcases List.mem_cons.1 h with rfl | h
    · simp [peerStates]
    · have := mem_peerStates h
      rw [peerStates_cons]
      split
      · split
        · exact .tail _ this
        · exact this
      · exact this

namespace Props
open Spec

/-- C61: once a CP peer has become associated, it stays so. -/
theorem C61_stays {ep : Ep} (h : Reached ep) {fi p} (hp : ep.peer? fi = some p) (ha : Event.peer fi (.state .associated) ∈ ep.log) :
    p.isAssociated = true := by
  have h1 := (C60_taken h fi).stays (mem_peerStates ha)
  rw [C60_state h hp] at h1
  simp only [Option.some.injEq] at h1
  simp [Peer.isAssociated, h1]

/-- C61: a CP peer is associated exactly if it got, for one of its Association Setup Requests, a response with Cause "Request accepted". -/
theorem C61_exactly {ep : Ep} (h : Reached ep) {fi p} (hp : ep.peer? fi = some p) :
    p.isAssociated = true ↔ Accepted fi p.remote ep.log := by
  refine ⟨C61_accepted_partial h hp, ?_⟩
  rintro ⟨id, seq, k, m, t, g1, g2, g3, -, -, g4⟩
  exact C61_stays h hp (h.honoured.became fi p.remote id seq k t m g2 g1 g3 g4)

/-! ### C103: a CP peer gets associated -/

/-- What the application at `b` says to Association Setup Requests from `a`: every Association Setup Response that it passes has the
Cause "Request accepted" (the second IE of this message). -/
def Accepts (w : Net) (b a : Sockaddr) : Prop :=
  ∀ id n1 t1 resp, Event.passed id n1 t1 resp ∈ (w b).log → resp.isResponse = true → resp.remote = a → resp.h.type = 6 →
    ∃ l, resp.ies[1]? = some (.leaf (.cause 1) :: l)

/-- ... and never does it have this Cause. -/
def Rejects (w : Net) (b a : Sockaddr) : Prop :=
  ∀ id n1 t1 resp, Event.passed id n1 t1 resp ∈ (w b).log → resp.isResponse = true → resp.remote = a → resp.h.type = 6 →
    ∀ l, resp.ies[1]? ≠ some (.leaf (.cause 1) :: l)

/-- C103: a CP peer of `a` for the endpoint `b` has sent its Association Setup Request (with `n1` and `t1` not 0), and a datagram
of it - the first, or a retransmission - arrives at `b`, which is open; what happens then is in the part `l` of its log.  The application
there answers at once, sendto() does not fail, and no other endpoint has used the sequence number at `b`.  Then there is a datagram
that `b` sends to `a` such that, whatever happens in the network then, if this datagram - it or another copy - arrives at `a` in time,
and `b` accepts, the CP peer is associated; unless `a` was closed, or sendto() has failed for the request. -/
theorem C103_associates {w : Net} (h : NetReached w) {a b fi id seq n1 t1 m why0 o t0 rs ep' l}
    (hm : Event.passed id n1 t1 m ∈ (w a).log) (ha : AssocReqOf fi b id seq (w a).log) (hn1 : n1 ≠ 0) (ht1 : t1 ≠ 0)
    (ho : Event.send why0 id b o true t0 ∈ (w a).log) (hw : why0 = .tx ∨ why0 = .retrans) (hsk : (w b).sock = true)
    (hrx : (w b).rxDatagram a o rs = .ok ep') (hl : ep'.log = l ++ (w b).log)
    (hp : Proper (w.set b ep')) (hr : Responsive (w.set b ep')) (hf : (w.set b ep' a).freshSeqs)
    (hans : AnswersAtOnce l) (hio : ∀ why i r o t, Event.send why i r o false t ∉ l)
    (hcol : ∀ k y, Event.received k y ∈ ep'.log → y.isResponse = false → y.h.seq = seq → y.remote = a) :
    ∃ why1 id1 o1 t1', Event.send why1 id1 a o1 true t1' ∈ l ∧
      ∀ w2 v t2 r2 o2 rs2 ep2, NetSteps (w.set b ep') w2 →
        Event.send .tx id r2 o2 true t2 ∈ (w2 a).log → (∀ x y z, Event.config x y z ∈ (w2 a).log → v ≤ y) →
        (∀ why r o t, Event.send why id r o false t ∉ (w2 a).log) → drops id (w2 a).log = 0 → (w2 a).sock = true →
        (w2 a).now < t2 + (n1 + 1) * v → (w2 a).rxDatagram b o1 rs2 = .ok ep2 →
        Proper (w2.set a ep2) → Responsive (w2.set a ep2) → ep2.freshSeqs → Accepts (w2.set a ep2) b a →
        ∃ p, ep2.peer? fi = some p ∧ p.isAssociated = true := by
  have hreach := h.reached a
  obtain ⟨n1', t1', q, q1, q2, q3, q4, q5, q6⟩ := ha
  cases hreach.both.use.one _ _ _ _ _ _ _ hm q1
  have on := set_onward (w := w) (Op.onward (op := .rx a o rs) (h.reached b) hrx)
  have hqr : m.isResponse = false := by
    have := (hp.sendable _ _ _ _ _ ((on a).mem hm)).2.2
    rw [q2] at this
    cases hx : m.isResponse
    · rfl
    · exact absurd (this.1 hx) (by decide)
  obtain ⟨why1, id1, o1, tt, g1, g2⟩ := C97_transaction h hm hqr (by rw [q2]; decide) (by unfold PMsg.hasCb; rw [q6]; rfl) ho hw hsk hrx hl
    hp hr hf hans hio (by rw [q4]; exact hcol)
  refine ⟨why1, id1, o1, tt, g1, ?_⟩
  intro w2 v t2 r2 o2 rs2 ep2 hs h0 hv hfail hd hsk2 hnow hrx2 hp3 hr3 hf3 hacc
  obtain ⟨k, x, c1, c2, j, y, hy, y1, y2, y3, hres⟩ :=
    g2 w2 v t2 r2 o2 rs2 ep2 hs h0 hv hn1 ht1 hfail hd hsk2 hnow hrx2 hp3 hr3 hf3
  have hn : NetReached (w.set b ep') := .step h (.deliver a b rs ho hrx)
  have hn2 := hs.reached hn
  have hm2 := hs.mem hn ((on a).mem hm)
  have hr2 : Reached ep2 := .op (.rx b o1 rs2) (hn2.reached a) hrx2
  have on2 := set_onward (w := w2) (Op.onward (op := .rx b o1 rs2) (hn2.reached a) hrx2)
  have hm3 : Event.passed id n1 t1 m ∈ ep2.log := by
    have := (on2 a).mem hm2
    rwa [Net.set_same] at this
  have ha3 : AssocReqOf fi b id seq ep2.log := ⟨n1, t1, m, hm3, q2, q3, q4, q5, q6⟩
  have hcall : ∃ t, Event.respCb id (some k) t ∈ ep2.log := by
    have : some k ∈ respCalls id ep2.log := by rw [c1]; exact .head _
    rw [respCalls_rx] at this
    obtain ⟨t, ht⟩ := this
    exact ⟨t, (mem_rxEvents rfl).1 ht⟩
  obtain ⟨t, hcall⟩ := hcall
  have hxacc : RequestAccepted x := by
    rcases hres with ⟨id', n1', t1', resp, z1, z2, z3, z4, z5, z6⟩ | ⟨hb, _⟩
    · have h6 : resp.h.type = 6 := by rw [z6, y2, q2]
      obtain ⟨l0, hl0⟩ := hacc id' n1' t1' resp z1 z2 z3 h6
      have hxr : Event.received k x ∈ (w2.set a ep2 a).log := by rw [Net.set_same]; exact c2
      have hsnd : Event.send why1 id1 a o1 true tt ∈ (w2 b).log := hs.mem hn (by
        rw [Net.set_same, hl]; exact List.mem_append_left _ g1)
      have hn3 : NetReached (w2.set a ep2) := .step hn2 (.deliver b a rs2 hsnd hrx2)
      obtain ⟨_, _, _, _, _, hfr⟩ := hn3.received hxr
      have hc := hfr.cause
      rw [← z4, h6] at hc
      refine ⟨l0, ?_⟩
      unfold PMsg.cause
      have hc : x.causeAt = some 1 := hc
      rw [hc, ← z5]
      exact hl0
    · rw [q2] at hb; cases hb
  have hassoc := hr2.honoured.became fi b id seq k t x hcall ha3 c2 hxacc
  obtain ⟨p, hpp⟩ := C60_kept hr2 hassoc
  exact ⟨p, hpp, C61_stays hr2 hpp hassoc⟩

/-- C103: and a CP peer for an endpoint whose application never accepts is not associated. -/
theorem C103_rejected {w : Net} (h : NetReached w) (hp : Proper w) (hr : Responsive w) {a fi p} (hf : (w a).freshSeqs)
    (hpe : (w a).peer? fi = some p) (hx : Rejects w p.remote a) : p.isAssociated = false := by
  cases ha : p.isAssociated with
  | false => rfl
  | true =>
    obtain ⟨_, _, id, n1, t1, resp, l, -, -, -, g1, g2, g3, g4, -, g5⟩ := C84_associated h hp hr hf hpe ha
    exact absurd g5 (hx id n1 t1 resp g1 g2 g3 g4 l)

/-! ### Examples -/

/-- What CP peer `fi` asked, with message `id`. -/
def asksB (fi : Nat) (r : Sockaddr) (id seq n1 t1 : Nat) (log : List Event) : Bool :=
  log.any fun e => match e with
    | .passed i x y q => decide (i = id ∧ x = n1 ∧ y = t1 ∧ q.h.type = 5 ∧ q.remote = r ∧ q.h.seq = seq ∧ q.ctx.peerFi = some fi ∧ q.ctx.respCb = some Cb.assoc)
    | _ => false

theorem asksB_ok {fi r id seq n1 t1 log} (h : asksB fi r id seq n1 t1 log = true) :
    ∃ q, Event.passed id n1 t1 q ∈ log ∧ AssocReqOf fi r id seq log := by
  obtain ⟨e, he, hx⟩ := List.any_eq_true.1 h
  split at hx
  · obtain ⟨rfl, rfl, rfl, h1, h2, h3, h4, h5⟩ := of_decide_eq_true hx
    exact ⟨_, he, _, _, _, he, h1, h2, h3, h4, h5⟩
  · cases hx

/-- All Association Setup Responses to `a` have Cause `c`. -/
def causesB (c : Nat) (a : Sockaddr) (log : List Event) : Bool :=
  log.all fun e => match e with
    | .passed _ _ _ resp => !resp.isResponse || decide (resp.remote ≠ a) || decide (resp.h.type ≠ 6) || (match (resp.ies[1]? : Option (List (Val IeVal))) with
      | some (.leaf (.cause x) :: _) => decide (x = c)
      | _ => false)
    | _ => true

theorem causesB_ok {w : Net} {a b} (h : causesB 1 a (w b).log = true) : Accepts w b a := by
  intro id n1 t1 resp h1 h2 h3 h4
  have := List.all_eq_true.1 h _ h1
  simp only [h2, h3, h4, Bool.or_eq_true, Bool.not_true, decide_eq_true_eq, ne_eq, not_true, false_or, Bool.false_eq_true] at this
  split at this
  · rename_i x l hx
    rw [of_decide_eq_true this] at hx
    exact ⟨l, hx⟩
  · cases this

/-- The situation of C103: `copyB` (of C97), for the CP peer 7 of A; and what follows when the answer arrives at once. -/
def joinB (w : Net) : Bool :=
  asksB 7 exB 0 1 2 100 (w exA).log && doneB w &&
    match (w exA).rxDatagram exB exJoinAnswer [] with
    | .ok ep => causesB 1 exA ((w.set exA ep) exB).log && (match ep.peer? 7 with | some p => p.isAssociated | none => false)
    | _ => false

/-- The hypotheses of C103_associates are met, by the first datagram and by a retransmission that is answered from what the endpoint has
kept; and the CP peer is associated then. -/
example : ((netExec (exAssoc.take 2) exNet).any (copyB .tx 0 (.tx exAccepts true .done .done) joinB)) = true ∧
    ((netExec (exAssoc.take 3 ++ [.at exA (.advance 100), .at exA (.reqTimer 0 true .done)]) exNet).any
    (copyB .retrans 100 .done joinB)) = true := by decide +kernel

end Props
end Verif
