/-
Properties of networks: a request that arrives is answered, and the answer is found (C97).
-/
import Verif.PropsTime

namespace Verif

/-- What can happen in a network after it was in state `w`. -/
inductive NetSteps (w : Net) : Net → Prop
  | refl : NetSteps w w
  | step {w1 w2} : NetSteps w w1 → NetStep w1 w2 → NetSteps w w2

theorem NetSteps.reached {w w' : Net} (h : NetReached w) (hs : NetSteps w w') : NetReached w' := by
  induction hs with
  | refl => exact h
  | step _ hs ih => exact .step ih hs

theorem NetSteps.mem {w w' : Net} (h : NetReached w) (hs : NetSteps w w') {a e} (he : e ∈ (w a).log) : e ∈ (w' a).log := by
  induction hs with
  | refl => exact he
  | step hs hn ih =>
    obtain ⟨l, hl⟩ := hn.log (hs.reached h) a
    rw [hl]; exact List.mem_append_right _ ih

namespace Props
open Spec

/-- C97: a datagram of a request (first or retransmitted, not a heartbeat) of `a` arrives at `b`, which is open; what happens then
is in the part `l` of the log.  If the application there answers at once, sendto() does not fail, and no other endpoint has used
the sequence number of the request at `b`, then `b` sends, to `a`, a response to this request: the one that its application has
passed now, or the one that it has passed for an earlier copy. -/
theorem C97_every_copy_answered {w : Net} (h : NetReached w) {a b id n1 t1 m why0 o t0 rs ep' l}
    (hm : Event.passed id n1 t1 m ∈ (w a).log) (hq : m.isResponse = false) (ht : m.h.type ≠ 1)
    (ho : Event.send why0 id b o true t0 ∈ (w a).log) (hw : why0 = .tx ∨ why0 = .retrans) (hsk : (w b).sock = true)
    (hrx : (w b).rxDatagram a o rs = .ok ep') (hl : ep'.log = l ++ (w b).log)
    (hp : Proper (w.set b ep')) (hr : Responsive (w.set b ep')) (hf : (w.set b ep' a).freshSeqs)
    (hans : AnswersAtOnce l) (hio : ∀ why i r o t, Event.send why i r o false t ∉ l)
    (hcol : ∀ k y, Event.received k y ∈ ep'.log → y.isResponse = false → y.h.seq = m.h.seq → y.remote = a) :
    ∃ id' n1' t1' resp why o' t', Event.passed id' n1' t1' resp ∈ ep'.log ∧ resp.isResponse = true ∧ resp.remote = a ∧
      resp.h.seq = m.h.seq ∧ resp.h.type = m.h.type + 1 ∧ Answered (w.set b ep') a b m resp.h resp.ies ∧
      (why = .tx ∨ ∃ k, why = .cachedReply k) ∧ Event.send why id' a o' true t' ∈ l := by
  have hst : (Op.rx a o rs).step (w b) = .ok ep' := hrx
  have hb := h.reached b
  have hb' : Reached ep' := .op _ hb hst
  have on := set_onward (w := w) (Op.onward hb hst)
  have hp0 := hp.before on
  have hn : NetReached (w.set b ep') := .step h (.deliver a b rs ho hrx)
  have ho' : (b, o) ∈ transmissions id (w a).log := by
    refine List.mem_filterMap.2 ⟨_, ho, ?_⟩
    rcases hw with rfl | rfl <;> simp
  obtain ⟨x, l', hl', -, hrec, x1, x2, x3, x4, hcase⟩ := C85_request_delivered h hp0 hm hq ho' hsk hrx
  cases List.append_cancel_right (hl'.symm.trans hl)
  -- any response with this number that the application has passed is one to this request
  have good : ∀ {id' n1' t1' resp}, Event.passed id' n1' t1' resp ∈ ep'.log → resp.isResponse = true → resp.h.seq = m.h.seq →
      resp.remote = a ∧ resp.h.type = m.h.type + 1 ∧ Answered (w.set b ep') a b m resp.h resp.ies := by
    intro id' n1' t1' resp h1 h2 h3
    have h1' : Event.passed id' n1' t1' resp ∈ (w.set b ep' b).log := by rw [Net.set_same]; exact h1
    obtain ⟨k, y, y1, y2, y3, y4, y5⟩ := hr _ _ _ _ _ h1' h2
    have y1' := y1
    rw [Net.set_same] at y1'
    have hya := hcol k y y1' y2 (y4.trans h3)
    obtain ⟨e1, e2, e3⟩ := request_known hn hp hf ((on a).mem hm) hq y1 y2 hya (y4.trans h3)
    refine ⟨y3.symm.trans hya, by rw [y5, e1], k, y, y1, hya, e1, e2, .inl ⟨id', n1', t1', resp, h1', h2, y3.symm.trans hya, rfl, rfl, y5⟩⟩
  rcases hcase with ⟨-, hd⟩ | ⟨id', n1', t1', resp, o', p1, -, p2, p3, -, hc⟩
  · have hdl : Event.dispatch (w b).nextId none ∈ l := by
      have : ((w b).nextId, none) ∈ dispatches l := by rw [hd]; exact .head _
      obtain ⟨e, he, hx⟩ := List.mem_filterMap.1 this
      split at hx
      · cases hx; exact he
      · cases hx
    obtain ⟨id', n1', t1', resp, p1, p2, p3, p4⟩ := hans _ x hrec hdl x4 (by rw [x2]; exact ht)
    have p1' : Event.passed id' n1' t1' resp ∈ ep'.log := by rw [hl]; exact List.mem_append_left _ p1
    have p4' : Event.returned id' none ∈ ep'.log := by rw [hl]; exact List.mem_append_left _ p4
    rw [x2] at p3
    obtain ⟨g1, g2, g3⟩ := good p1' p2 p3
    obtain ⟨t, htm⟩ := hb'.answered p1' p2 p4'
    have hnew := hb'.newPassed hl p1 t
    have htl : t ∈ sentTimes id' l := by
      unfold sentTimes at htm ⊢
      rw [hl, List.filterMap_append] at htm
      rcases List.mem_append.1 htm with hx | hx
      · exact hx
      · exact absurd hx hnew
    obtain ⟨r, o', hx⟩ := mem_sentTimes.1 htl
    obtain ⟨s', hlife', _⟩ := hb'.inv.life id'
    have hrem : ∀ {why}, (why = .tx ∨ why = .retrans) → Event.send why id' r o' true t ∈ l → r = a := by
      intro why hw hx
      obtain ⟨n2, t2, m2, q1, q2, _⟩ := Life.sends hlife' (why := why) (r := r) (o := o') (ok := true) (t := t)
        (by rw [hl]; exact List.mem_append_left _ hx) (by rcases hw with rfl | rfl <;> rfl)
      have := ((hlife'.tally.info _ _ _).1 q1).symm.trans ((hlife'.tally.info _ _ _).1 p1')
      simp only [Option.some.injEq, Prod.mk.injEq] at this
      rw [← q2, this.2.2, g1]
    rcases hx with hx | hx
    · cases hrem (.inl rfl) hx
      exact ⟨id', n1', t1', resp, .tx, o', t, p1', p2, g1, p3, g2, g3, .inl rfl, hx⟩
    · obtain ⟨l2, l1, hll⟩ := List.append_of_mem (show Event.send .retrans id' r o' true t ∈ ep'.log by
        rw [hl]; exact List.mem_append_left _ hx)
      have hlf := hlife'
      rw [hll] at hlf
      obtain ⟨s0, s1, h2, hnx⟩ := Life.split hlf
      have hgd := h2.tally.good
      cases hnx
      case other ha => exact absurd rfl ha
      case retrans n3 t3 m3 _ =>
        have h3 := (h2.tally.info n3 t3 m3).2 rfl
        have := ((hlife'.tally.info _ _ _).1 (show Event.passed id' n3 t3 m3 ∈ ep'.log by
          rw [hll]; exact List.mem_append_right _ (.tail _ h3))).symm.trans ((hlife'.tally.info _ _ _).1 p1')
        simp only [Option.some.injEq, Prod.mk.injEq] at this
        have hg2 := hgd.2.1
        rw [this.2.2, p2] at hg2
        cases hg2
  · have p1' : Event.passed id' n1' t1' resp ∈ ep'.log := by rw [hl]; exact List.mem_append_right _ p1
    obtain ⟨g1, g2, g3⟩ := good p1' p2 p3
    have : ((w b).nextId, id', resp.remote, o', (rs.headD {}).io) ∈ cachedReplies l := by rw [hc]; exact .head _
    obtain ⟨e, he, hx⟩ := List.mem_filterMap.1 this
    split at hx
    · rename_i k i r o2 ok t
      cases hx
      cases hok : (rs.headD {}).io with
      | false => rw [hok] at he; exact absurd he (hio _ _ _ _ _)
      | true =>
        rw [hok, g1] at he
        exact ⟨id', n1', t1', resp, _, o', t, p1', p2, g1, p3, g2, g3, .inr ⟨_, rfl⟩, he⟩
    · cases hx

/-- C97: the whole transaction.  In the situation of `C97_every_copy_answered`, there is a datagram that `b` sends in reply such that,
whatever happens in the network then, if this datagram - it or another copy - arrives at `a` in time - less than (N1 + 1) * `v` after the
request was sent first, where `v` is not more than T1 ever was -, then the resp_cb() of the request has been called exactly once, with a response; unless `a` was closed,
or sendto() has failed for the request. -/
theorem C97_transaction {w : Net} (h : NetReached w) {a b id n1 t1 m why0 o t0 rs ep' l}
    (hm : Event.passed id n1 t1 m ∈ (w a).log) (hq : m.isResponse = false) (ht : m.h.type ≠ 1) (hcb : m.hasCb = true)
    (ho : Event.send why0 id b o true t0 ∈ (w a).log) (hw : why0 = .tx ∨ why0 = .retrans) (hsk : (w b).sock = true)
    (hrx : (w b).rxDatagram a o rs = .ok ep') (hl : ep'.log = l ++ (w b).log)
    (hp : Proper (w.set b ep')) (hr : Responsive (w.set b ep')) (hf : (w.set b ep' a).freshSeqs)
    (hans : AnswersAtOnce l) (hio : ∀ why i r o t, Event.send why i r o false t ∉ l)
    (hcol : ∀ k y, Event.received k y ∈ ep'.log → y.isResponse = false → y.h.seq = m.h.seq → y.remote = a) :
    ∃ why1 id1 o1 t1', Event.send why1 id1 a o1 true t1' ∈ l ∧
      ∀ w2 v t2 r2 o2 rs2 ep2, NetSteps (w.set b ep') w2 →
        Event.send .tx id r2 o2 true t2 ∈ (w2 a).log → (∀ x y z, Event.config x y z ∈ (w2 a).log → v ≤ y) → n1 ≠ 0 → t1 ≠ 0 →
        (∀ why r o t, Event.send why id r o false t ∉ (w2 a).log) → drops id (w2 a).log = 0 → (w2 a).sock = true →
        (w2 a).now < t2 + (n1 + 1) * v → (w2 a).rxDatagram b o1 rs2 = .ok ep2 →
        Proper (w2.set a ep2) → Responsive (w2.set a ep2) → ep2.freshSeqs →
        ∃ k x, respCalls id ep2.log = [some k] ∧ Event.received k x ∈ ep2.log ∧ Answered (w2.set a ep2) a b m x.h x.ies := by
  obtain ⟨id1, n1', t1', resp, why1, o1, tt, p1, p2, p3, p4, -, -, p7, p8⟩ :=
    C97_every_copy_answered h hm hq ht ho hw hsk hrx hl hp hr hf hans hio hcol
  have hn : NetReached (w.set b ep') := .step h (.deliver a b rs ho hrx)
  have on := set_onward (w := w) (Op.onward (op := .rx a o rs) (h.reached b) hrx)
  refine ⟨why1, id1, o1, tt, p8, ?_⟩
  intro w2 v t2 r2 o2 rs2 ep2 hs h0 hv hn1 ht1 hfail hd hsk2 hnow hrx2 hp3 hr3 hf3
  have hn2 := hs.reached hn
  have hsend : Event.send why1 id1 a o1 true tt ∈ (w2 b).log := hs.mem hn (by
    rw [Net.set_same, hl]; exact List.mem_append_left _ p8)
  have hresp : Event.passed id1 n1' t1' resp ∈ (w2 b).log := hs.mem hn (by rw [Net.set_same]; exact p1)
  have hm2 := hs.mem hn ((on a).mem hm)
  have on2 := set_onward (w := w2) (Op.onward (op := .rx b o1 rs2) (hn2.reached a) hrx2)
  have hf3' : (w2.set a ep2 a).freshSeqs := by rw [Net.set_same]; exact hf3
  have hp2 := hp3.before on2
  have hf2 := (on2 a).fresh hf3'
  have hn3 : NetReached (w2.set a ep2) := .step hn2 (.deliver b a rs2 hsend hrx2)
  obtain ⟨k, hk⟩ := C87_response_in_time hn2 hp2 hf2 hm2 hq hcb hn1 ht1 h0 hv hfail hd hnow hresp p2 p4 hsend p7 hsk2 hrx2
  have hcall : some k ∈ respCalls id ep2.log := by rw [hk]; exact .head _
  obtain ⟨e, he, hx⟩ := List.mem_filterMap.1 hcall
  split at hx
  · rename_i i resp' t
    split at hx
    · rename_i hi
      cases hx
      subst hi
      obtain ⟨n4, t4, m4, x, q1, q2, q3, q4, q5, q6, q7⟩ := C83_resp_cb hn3 hp3 hr3 hf3' (k := k) (t := t) (by rw [Net.set_same]; exact he)
      obtain ⟨s', _, htl, _⟩ := (hn3.reached a).stage i
      have := ((htl.info _ _ _).1 q1).symm.trans ((htl.info _ _ _).1 ((on2 a).mem hm2))
      simp only [Option.some.injEq, Prod.mk.injEq] at this
      obtain ⟨-, -, rfl⟩ := this
      refine ⟨k, x, hk, by rw [Net.set_same] at q2; exact q2, ?_⟩
      obtain ⟨st, hlf, _⟩ := (h.reached a).inv.life i
      obtain ⟨n5, t5, m5, z1, z2, _⟩ := Life.sends hlf ho (by rcases hw with rfl | rfl <;> rfl)
      have := ((hlf.tally.info _ _ _).1 z1).symm.trans ((hlf.tally.info _ _ _).1 hm)
      simp only [Option.some.injEq, Prod.mk.injEq] at this
      rw [this.2.2] at z2
      rw [← z2]
      exact q7
    · cases hx
  · cases hx

/-! ### Examples -/

/-- The Association Setup Request of an endpoint (its first request). -/
def exJoinOctets : List UInt8 := assocReqOctets (.v4 (.inet 0x7f000002 0)) 2208988800 1

/-- Its answer. -/
def exJoinAnswer : List UInt8 := [32, 6, 0, 26, 0, 0, 1, 0, 0, 60, 0, 5, 0, 0x7f, 0, 0, 2, 0, 19, 0, 1, 1, 0, 96, 0, 4, 0, 0, 0, 9]

/-- The only thing that an endpoint has passed: with `id`, `n1`, `t1`, a request with resp_cb() and a sequence number. -/
def onlyPassed (log : List Event) : List (Nat × Nat × Nat × Bool × Bool × Nat × Nat) :=
  log.filterMap fun e => match e with | .passed id n1 t1 m => some (id, n1, t1, m.isResponse, m.hasCb, m.h.type, m.h.seq) | _ => none

theorem onlyPassed_mem {log x} (h : x ∈ onlyPassed log) :
    ∃ m, Event.passed x.1 x.2.1 x.2.2.1 m ∈ log ∧ m.isResponse = x.2.2.2.1 ∧ m.hasCb = x.2.2.2.2.1 ∧ m.h.type = x.2.2.2.2.2.1 ∧
      m.h.seq = x.2.2.2.2.2.2 := by
  obtain ⟨e, he, hx⟩ := List.mem_filterMap.1 h
  split at hx
  · cases hx
    exact ⟨_, he, rfl, rfl, rfl, rfl⟩
  · cases hx

/-- From whom requests were received. -/
def askedBy (log : List Event) : List Sockaddr :=
  log.filterMap fun e => match e with | .received _ y => if y.isResponse then none else some y.remote | _ => none

theorem askedBy_mem {log k y} (h : Event.received k y ∈ log) (hr : y.isResponse = false) : y.remote ∈ askedBy log :=
  List.mem_filterMap.2 ⟨_, h, by simp [hr]⟩

theorem neverFailedB_ok {log} (h : neverFailedB log = true) (why i r o t) : Event.send why i r o false t ∉ log := fun hm => by
  have := List.all_eq_true.1 h _ hm
  simp at this

/-- What was sent. -/
def sentIs (why : Why) (id : Nat) (r : Sockaddr) (o : List UInt8) (t : Nat) (log : List Event) : Bool :=
  log.any fun e => match e with | .send w i r' o' true t' => decide (w = why ∧ i = id ∧ r' = r ∧ o' = o ∧ t' = t) | _ => false

theorem sentIs_ok {why id r o t log} (h : sentIs why id r o t log = true) : Event.send why id r o true t ∈ log := by
  obtain ⟨e, he, hx⟩ := List.any_eq_true.1 h
  split at hx
  · obtain ⟨rfl, rfl, rfl, rfl, rfl⟩ := of_decide_eq_true hx
    exact he
  · cases hx

/-- The situation of C97: the request has been sent from A to B, which gets it and answers it with `onRx`. -/
def copyB (why : Why) (t : Nat) (onRx : App) (check : Net → Bool) (w : Net) : Bool :=
  match (w exB).rxDatagram exA exJoinOctets [{ onRx }] with
  | .ok ep' =>
    let l := ep'.log.take (ep'.log.length - (w exB).log.length)
    goodB [exA, exB] (w.set exB ep') && freshB (w.set exB ep' exA) && answersB l && neverFailedB l &&
      ((askedBy ep'.log).all fun a => decide (a = exA)) && (w exB).sock && decide ((0, 2, 100, false, true, 5, 1) ∈ onlyPassed (w exA).log) &&
      sentIs why 0 exB exJoinOctets t (w exA).log && check (w.set exB ep')
  | _ => false

theorem copyB_ok {w : Net} {why t onRx check} (hn : NetReached w) (h0 : ∀ a, a ∉ [exA, exB] → w a = exEp) (h : copyB why t onRx check w = true) :
    ∃ ep' l m, Event.passed 0 2 100 m ∈ (w exA).log ∧ m.isResponse = false ∧ m.h.type ≠ 1 ∧ m.hasCb = true ∧
      Event.send why 0 exB exJoinOctets true t ∈ (w exA).log ∧ (w exB).sock = true ∧
      (w exB).rxDatagram exA exJoinOctets [{ onRx }] = .ok ep' ∧ ep'.log = l ++ (w exB).log ∧
      Proper (w.set exB ep') ∧ Responsive (w.set exB ep') ∧ (w.set exB ep' exA).freshSeqs ∧ AnswersAtOnce l ∧
      (∀ why i r o t, Event.send why i r o false t ∉ l) ∧
      (∀ k y, Event.received k y ∈ ep'.log → y.isResponse = false → y.h.seq = m.h.seq → y.remote = exA) ∧ check (w.set exB ep') = true := by
  unfold copyB at h
  split at h
  · rename_i ep' hep
    simp only [Bool.and_eq_true, decide_eq_true_eq] at h
    obtain ⟨⟨⟨⟨⟨⟨⟨⟨c1, c2⟩, c3⟩, c4⟩, c5⟩, c6⟩, c7⟩, c8⟩, c9⟩ := h
    obtain ⟨m, m1, m2, m3, m4, m5⟩ := onlyPassed_mem c7
    obtain ⟨l, hl, _⟩ := (Op.onward (op := .rx exA exJoinOctets [{ onRx }]) (hn.reached exB) hep).log
    have hlt : ep'.log.take (ep'.log.length - (w exB).log.length) = l := by rw [hl]; simp
    rw [hlt] at c3 c4
    obtain ⟨p1, p2⟩ := goodB_ok c1 fun a ha => by
      rw [Net.set_other _ _ (by rintro rfl; exact ha (by decide))]; exact h0 a ha
    refine ⟨ep', l, m, m1, m2, by rw [m4]; decide, m3, sentIs_ok c8, c6, hep, hl, p1, p2, freshB_ok c2, answersB_ok c3, neverFailedB_ok c4, ?_, c9⟩
    intro k y hy hr _
    simpa using List.all_eq_true.1 c5 _ (askedBy_mem hy hr)
  · cases h

/-- The request of A has been sent; and has been answered, but the answer is lost, and is sent again after 100 ms. -/
theorem exCopies_found :
    ((netExec (exAssoc.take 2) exNet).any (copyB .tx 0 (.tx exAccepts true .done .done) fun w => sentIs .tx 1 exA exJoinAnswer 0 (w exB).log)) = true ∧
    ((netExec (exAssoc.take 3 ++ [.at exA (.advance 100), .at exA (.reqTimer 0 true .done)]) exNet).any
      (copyB .retrans 100 .done fun w => sentIs (.cachedReply 2) 1 exA exJoinAnswer 0 (w exB).log)) = true := by
  decide +kernel

/-- The hypotheses of C97 are met, by a request that arrives for the first time, and by a retransmission. -/
example : ∀ why t onRx, (why = .tx ∧ t = 0 ∧ onRx = App.tx exAccepts true .done .done ∨ why = .retrans ∧ t = 100 ∧ onRx = .done) →
    ∃ w ep' l m, NetReached w ∧ Event.passed 0 2 100 m ∈ (w exA).log ∧ m.isResponse = false ∧ m.h.type ≠ 1 ∧ m.hasCb = true ∧
      Event.send why 0 exB exJoinOctets true t ∈ (w exA).log ∧ (w exB).sock = true ∧
      (w exB).rxDatagram exA exJoinOctets [{ onRx }] = .ok ep' ∧ ep'.log = l ++ (w exB).log ∧
      Proper (w.set exB ep') ∧ Responsive (w.set exB ep') ∧ (w.set exB ep' exA).freshSeqs ∧ AnswersAtOnce l ∧
      (∀ why i r o t, Event.send why i r o false t ∉ l) ∧
      (∀ k y, Event.received k y ∈ ep'.log → y.isResponse = false → y.h.seq = m.h.seq → y.remote = exA) := by
  rintro why t onRx (⟨rfl, rfl, rfl⟩ | ⟨rfl, rfl, rfl⟩)
  · obtain ⟨w, h1, h2, h3⟩ := net_found [exA, exB] _ exCopies_found.1 (by decide)
    obtain ⟨ep', l, m, g1, g2, g3, g4, g5, g6, g7, g8, g9, g10, g11, g12, g13, g14, _⟩ := copyB_ok h1 h3 h2
    exact ⟨w, ep', l, m, h1, g1, g2, g3, g4, g5, g6, g7, g8, g9, g10, g11, g12, g13, g14⟩
  · obtain ⟨w, h1, h2, h3⟩ := net_found [exA, exB] _ exCopies_found.2 (by decide)
    obtain ⟨ep', l, m, g1, g2, g3, g4, g5, g6, g7, g8, g9, g10, g11, g12, g13, g14, _⟩ := copyB_ok h1 h3 h2
    exact ⟨w, ep', l, m, h1, g1, g2, g3, g4, g5, g6, g7, g8, g9, g10, g11, g12, g13, g14⟩

/-- What follows then: B answers A; and if the answer arrives at once, then the CP peer of A has its answer. -/
def doneB (w : Net) : Bool :=
  match (w exA).rxDatagram exB exJoinAnswer [] with
  | .ok ep => goodB [exA, exB] (w.set exA ep) && freshB ep && sendsB 2 100 (w exA).log && neverFailedB (w exA).log &&
      decide (drops 0 (w exA).log = 0) && (w exA).sock && decide ((w exA).now < 300) && sentIs .tx 0 exB exJoinOctets 0 (w exA).log &&
      decide ((respCalls 0 ep.log).length = 1) && decide (none ∉ respCalls 0 ep.log)
  | _ => false

/-- The further hypotheses of C97_transaction are met, too: in a network in which B has answered before, and answers the retransmission. -/
example : ((netExec (exAssoc.take 3 ++ [.at exA (.advance 100), .at exA (.reqTimer 0 true .done)]) exNet).any
    (copyB .retrans 100 .done doneB)) = true := by decide +kernel

/-! ### Two endpoints that use the same sequence number -/

/-- Every endpoint is a new one, with the default timers: N1 = 3, T1 = 3 s, responses are kept for 10 s. -/
def exNet3 : Net := fun _ => Ep.create { nodeId := .v4 (.inet 0x7f000002 0) } 3 3000 10000 0 0

/-- A CP peer for B; and the response of B to C that accepts it. -/
def exJoin : App := .bind true (.newPeer 7 exB (.setAssocCb 7 true (.associate 7 true .done)))
def exAcceptsC : PMsg := { exAccepts with remote := exC }

/-- A and C associate with B, at the same time.  The request of C arrives, and is answered.  The request of A arrives, each of the
four times that it is sent, without delay. -/
def exLockedOut : List TimedOp :=
  [.at exB (.app (.bind true .done)), .at exC (.app exJoin), .at exA (.app exJoin),
   .deliver exC exB exJoinOctets [{ onRx := .tx exAcceptsC true .done .done }],
   .deliver exA exB exJoinOctets [],
   .pass exA 3000, .at exA (.reqTimer 0 true .done), .pass exB 3000, .deliver exA exB exJoinOctets [],
   .pass exA 3000, .at exA (.reqTimer 0 true .done), .pass exB 3000, .deliver exA exB exJoinOctets [],
   .pass exA 3000, .at exA (.reqTimer 0 true .done), .pass exB 3000, .deliver exA exB exJoinOctets [],
   .pass exA 3000, .at exA (.reqTimer 0 true .done)]

/-- To whom something was sent. -/
def sentTo (log : List Event) : List Sockaddr :=
  log.filterMap fun e => match e with | .send _ _ r _ true _ => some r | _ => none

/-- A network that is found by running it. -/
theorem timed3_found {D : Nat} {all : Bool} {ops : List TimedOp} (as : List Sockaddr) (check : Net → Bool)
    (h : (timedExec D all ops exNet3).any check = true) (has : ops.map TimedOp.where ⊆ as) :
    ∃ w, TimedReached D (fun _ => all = true) w ∧ check w = true ∧ ∀ a, a ∉ as → w a = exNet3 a := by
  cases hw : timedExec D all ops exNet3 with
  | none => rw [hw] at h; cases h
  | some w =>
    rw [hw] at h
    obtain ⟨h1, h2⟩ := timedExec_reached (.start _ fun _ => ⟨_, _, _, _, _, _, rfl⟩) hw
    exact ⟨w, h1, h, fun a ha => h2 a fun hx => ha (has hx)⟩

set_option maxRecDepth 100000 in
theorem exLockedOut_found : ((timedExec 0 true exLockedOut exNet3).any fun w => goodB [exA, exB, exC] w && freshB (w exA) && freshB (w exB) &&
    freshB (w exC) && neverFailedB (w exA).log && neverFailedB (w exB).log && neverClosedB (w exA).log && neverClosedB (w exB).log &&
    decide (askedBy (w exB).log = [exA, exA, exA, exA, exC]) && decide (sentTo (w exA).log = [exB, exB, exB, exB]) &&
    decide (sentTo (w exB).log = [exC, exC, exC, exC, exC]) &&
    decide (respCalls 0 (w exA).log = [none]) && decide ((w exA).now = 12000)) = true := by decide +kernel

/-- C97: that no other endpoint uses the sequence number is needed - and every endpoint begins with 1.  With the default timers, if
two endpoints associate with a third one at the same time, then, although no datagram is lost or delayed, the application there
answers at once and sendto() never fails, the second one is never answered: the third sends the response to the first one five times,
and the second one reports failure after 12 s. -/
theorem C97_locked_out : ∃ w a b c, TimedReached 0 (fun _ => True) w ∧ Proper w ∧ Responsive w ∧ (w a).freshSeqs ∧ (w b).freshSeqs ∧
    (w c).freshSeqs ∧ (∀ why i r o t, Event.send why i r o false t ∉ (w a).log ∧ Event.send why i r o false t ∉ (w b).log) ∧
    (∀ i, Event.dropped i ∉ (w a).log ∧ Event.dropped i ∉ (w b).log) ∧
    a ≠ c ∧ sentTo (w a).log = [b, b, b, b] ∧ askedBy (w b).log = [a, a, a, a, c] ∧ sentTo (w b).log = [c, c, c, c, c] ∧
    respCalls 0 (w a).log = [none] ∧ (w a).now = 12000 := by
  obtain ⟨w, h1, h2, h3⟩ := timed3_found [exA, exB, exC] _ exLockedOut_found (by decide)
  simp only [Bool.and_eq_true, decide_eq_true_eq] at h2
  obtain ⟨⟨⟨⟨⟨⟨⟨⟨⟨⟨⟨⟨c1, c2⟩, c3⟩, c4⟩, c5⟩, c6⟩, c7⟩, c8⟩, c9⟩, c10⟩, c11⟩, c12⟩, c13⟩ := h2
  have : (fun _ : Sockaddr => true = true) = fun _ => True := by funext; simp
  rw [this] at h1
  unfold goodB at c1
  rw [Bool.and_eq_true] at c1
  refine ⟨w, exA, exB, exC, h1, Net.properB_ok c1.1 fun a ha => (by rw [h3 a ha]; rfl), responsiveB_ok fun a => ?_, freshB_ok c2, freshB_ok c3,
    freshB_ok c4, fun why i r o t => ⟨fun hm => ?_, fun hm => ?_⟩, fun i => ⟨neverClosedB_ok c7 i, neverClosedB_ok c8 i⟩, by decide, c10, c9, c11,
    c12, c13⟩
  · by_cases ha : a ∈ [exA, exB, exC]
    · exact List.all_eq_true.1 c1.2 a ha
    · rw [h3 a ha]; rfl
  · have := List.all_eq_true.1 c5 _ hm
    simp at this
  · have := List.all_eq_true.1 c6 _ hm
    simp at this

end Props
end Verif
