/-
A request that is answered was processed exactly once: C120.
-/
import Verif.PropsTimed

namespace Verif.Spec
open Verif

/-- The application at each endpoint passes responses to osmo_pfcp_endpoint_tx() only for requests that its rx_msg_cb() has got: with the sequence number of the
request, its sender as destination, and the type that belongs to that of the request. -/
def AnswersItsRequests (w : Net) : Prop :=
  ∀ b id n1 t1 resp, Event.passed id n1 t1 resp ∈ (w b).log → resp.isResponse = true →
    ∃ k y, Event.received k y ∈ (w b).log ∧ Event.dispatch k none ∈ (w b).log ∧ y.isResponse = false ∧ y.remote = resp.remote ∧
      y.h.seq = resp.h.seq ∧ resp.h.type = y.h.type + 1

/-- rx_msg_cb() at the endpoint has got a request with this sequence number from `a`, as message `k`. -/
def Processed (log : List Event) (a : Sockaddr) (seq k : Nat) : Prop :=
  ∃ y q, Event.received k y ∈ log ∧ Event.dispatch k q ∈ log ∧ y.remote = a ∧ y.isResponse = false ∧ y.h.type ≠ 1 ∧ y.h.seq = seq

end Verif.Spec

namespace Verif.Props
open Verif Spec

/-- C120: exactly once.  In the situation of C86 - timers are handled on time, datagrams arrive within `D` ms or never, responses are kept longer than requests
may travel, the receiver's application answers at once, and never closes the endpoint -, and if applications answer only what they got: when the resp_cb() of a request
(not a heartbeat) is called with a response, then rx_msg_cb() at the endpoint that was asked has got this request, with the header and the IEs that were passed, exactly
once; and the response is one that the application there has passed for it. -/
theorem C120_answered_exactly_once {D : Nat} {B : Sockaddr → Prop} {w : Net} (h : TimedReached D B w) (hp : Proper w) (hr : AnswersItsRequests w)
    {a : Sockaddr} {id n1 t1 m k t N v K} (hm : Event.passed id n1 t1 m ∈ (w a).log) (ht : m.h.type ≠ 1)
    (hB : B m.remote) (hf : (w a).freshSeqs) (hs : Sends N v (w a).log) (hk : Keeps K (w m.remote).log)
    (hc : ∀ id, Event.dropped id ∉ (w m.remote).log) (hK : N * v + D < K)
    (hcb : Event.respCb id (some k) t ∈ (w a).log) :
    ∃ j y x, Event.received j y ∈ (w m.remote).log ∧ Event.dispatch j none ∈ (w m.remote).log ∧
      y.remote = a ∧ y.isResponse = false ∧ y.h = m.h ∧ y.ies = m.ies ∧
      (∀ i, Processed (w m.remote).log a m.h.seq i ↔ i = j) ∧
      Event.received k x ∈ (w a).log ∧
      ∃ id' n1' t1' resp, Event.passed id' n1' t1' resp ∈ (w m.remote).log ∧ resp.isResponse = true ∧ resp.remote = a ∧
        resp.h.type = m.h.type + 1 ∧ resp.h.seq = m.h.seq ∧ resp.h = x.h ∧ resp.ies = x.ies := by
  have hn := h.net
  have hresp : Responsive w := fun b id n1 t1 r h1 h2 => by
    obtain ⟨k, y, g1, -, g3, g4, g5, g6⟩ := hr b id n1 t1 r h1 h2
    exact ⟨k, y, g1, g3, g4, g5, g6⟩
  obtain ⟨n1', t1', m', x, c1, c2, c3, c4, c5, c6, j0, y0, d1, d2, d3, d4, d5⟩ := C83_resp_cb hn hp hresp hf hcb
  have hmm : m' = m := by
    obtain ⟨st, h1, -, -⟩ := (hn.reached a).inv.life id
    have e1 := (h1.tally.info _ _ _).1 hm
    have e2 := (h1.tally.info _ _ _).1 c1
    rw [e1] at e2
    cases e2; rfl
  subst hmm
  rcases d5 with ⟨id', n1', t1', resp, p1, p2, p3, p4, p5, p6⟩ | ⟨h1, -⟩
  · obtain ⟨j, y, g1, g2, g3, g4, g5, g6⟩ := hr _ _ _ _ _ p1 p2
    have hseq : resp.h.seq = m'.h.seq := by rw [p4, c5]
    have hya : y.remote = a := g4.trans p3
    obtain ⟨k1, k2, -⟩ := request_known hn hp hf hm c3 g1 g3 hya (g5.trans hseq)
    refine ⟨j, y, x, g1, g2, hya, g3, k1, k2, fun i => ⟨?_, ?_⟩, c2, id', n1', t1', resp, p1, p2, p3, ?_, hseq, p4, p5⟩
    · rintro ⟨y', q, a1, a2, a3, a4, a5, a6⟩
      exact C86_at_most_once h hp hB hf hs hk hc hK a1 g1 a3 hya a4 g3 a5 (by rw [k1]; exact ht) (by rw [a6, k1]) a2 g2
    · rintro rfl
      exact ⟨y, none, g1, g2, hya, g3, by rw [k1]; exact ht, by rw [k1]⟩
    · rw [p4, c6]
  · exact absurd h1 ht

/-! ### Example -/

def answersItsB (log : List Event) : Bool :=
  log.all fun e => match e with
    | .passed _ _ _ m => !m.isResponse || log.any fun e => match e with
      | .received k y => !y.isResponse && decide (y.remote = m.remote ∧ y.h.seq = m.h.seq ∧ m.h.type = y.h.type + 1) && toldB k log
      | _ => false
    | _ => true

theorem answersItsB_ok {w : Net} (h : ∀ a, answersItsB (w a).log = true) : AnswersItsRequests w := by
  intro a id n1 t1 m hm hr
  have := List.all_eq_true.1 (h a) _ hm
  dsimp only at this
  rw [hr] at this
  simp only [Bool.not_true, Bool.false_or] at this
  obtain ⟨e, he, hx⟩ := List.any_eq_true.1 this
  split at hx
  · rename_i k y
    simp only [Bool.and_eq_true, Bool.not_eq_true', decide_eq_true_eq] at hx
    obtain ⟨⟨h1, h2, h3, h4⟩, h5⟩ := hx
    exact ⟨k, y, he, toldB_ok.1 h5, h1, h2, h3, h4⟩
  · cases hx

/-- The response of B, as it is sent. -/
def exReleasedOctets : List UInt8 := [32, 10, 0, 18, 0, 0, 1, 0, 0, 60, 0, 5, 0, 127, 0, 0, 2, 0, 19, 0, 1, 1]

/-- A sends a request with a resp_cb() to B, which answers; the response is lost; A retransmits the request, B gets that twice, and answers both times from its cache; one of
these datagrams arrives. -/
def exOnce : List TimedOp :=
  [.at exA (.app (.bind true (.tx { exRelease with remote := exB, ctx := { respCb := some (.app 1) } } true .done .done))),
   .at exB (.app (.bind true .done)), .pass exB 20, .deliver exA exB exReleaseOctets [{ onRx := .tx exReleased true .done .done }]] ++ exAgain ++
  [.pass exB 100, .deliver exA exB exReleaseOctets [], .deliver exA exB exReleaseOctets [], .pass exA 30, .deliver exB exA exReleasedOctets []]

/-- The request and its resp_cb(). -/
def calledB (log : List Event) : Bool :=
  log.any fun e => match e with
    | .passed id _ _ m => decide (m.h.type ≠ 1 ∧ m.remote = exB) && log.any fun e => match e with
      | .respCb j (some _) _ => decide (j = id)
      | _ => false
    | _ => false

theorem calledB_ok {log} (h : calledB log = true) : ∃ id n1 t1 m k t, Event.passed id n1 t1 m ∈ log ∧ m.h.type ≠ 1 ∧ m.remote = exB ∧
    Event.respCb id (some k) t ∈ log := by
  obtain ⟨e, he, hx⟩ := List.any_eq_true.1 h
  split at hx
  · rename_i id n1 t1 m
    simp only [Bool.and_eq_true, decide_eq_true_eq] at hx
    obtain ⟨⟨h1, h2⟩, h3⟩ := hx
    obtain ⟨e', he', hx'⟩ := List.any_eq_true.1 h3
    split at hx'
    · rename_i j k t
      have : j = id := of_decide_eq_true hx'
      subst this
      exact ⟨j, n1, t1, m, k, t, he, h1, h2, he'⟩
    · cases hx'
  · cases hx

set_option maxRecDepth 100000 in
theorem exOnce_found : ((timedExec 50 true exOnce exNet).any fun w => w.properB [exA, exB] && freshB (w exA) &&
    sendsB 2 100 (w exA).log && keepsB 1000 (w exB).log && neverClosedB (w exB).log && answersItsB (w exA).log && answersItsB (w exB).log &&
    calledB (w exA).log && decide ((receivedMsgs (w exB).log).length = 3)) = true := by decide +kernel

-- The hypotheses of C120 are met, by a request that is received three times.
example : ∃ w id n1 t1 m k t, TimedReached 50 (fun _ => true = true) w ∧ Proper w ∧ AnswersItsRequests w ∧
    Event.passed id n1 t1 m ∈ (w exA).log ∧ m.h.type ≠ 1 ∧ m.remote = exB ∧ (w exA).freshSeqs ∧ Sends 2 100 (w exA).log ∧ Keeps 1000 (w exB).log ∧
    (∀ id, Event.dropped id ∉ (w exB).log) ∧ 2 * 100 + 50 < 1000 ∧ Event.respCb id (some k) t ∈ (w exA).log ∧
    (receivedMsgs (w exB).log).length = 3 := by
  obtain ⟨w, h1, h2, h3⟩ := timed_found [exA, exB] _ exOnce_found (by decide)
  simp only [Bool.and_eq_true, decide_eq_true_eq] at h2
  obtain ⟨⟨⟨⟨⟨⟨⟨⟨c1, c2⟩, c3⟩, c4⟩, c5⟩, c6⟩, c7⟩, c8⟩, c9⟩ := h2
  obtain ⟨id, n1, t1, m, k, t, d1, d2, d3, d4⟩ := calledB_ok c8
  refine ⟨w, id, n1, t1, m, k, t, h1, Net.properB_ok c1 fun a ha => (by rw [h3 a ha]; rfl), answersItsB_ok fun a => ?_, d1, d2, d3, freshB_ok c2,
    sendsB_ok c3, keepsB_ok c4, neverClosedB_ok c5, by decide, d4, c9⟩
  by_cases ha : a = exA
  · rw [ha]; exact c6
  by_cases hb : a = exB
  · rw [hb]; exact c7
  rw [h3 a (by simp [ha, hb])]
  rfl

end Verif.Props
