/-
Properties of networks with time: C86.
-/
import Verif.TimedExec
import Verif.PropsNet

namespace Verif.Props
open Verif Spec

/-! ### C86: a request is processed at most once -/

/-- The timers at the sender of requests: at most `N` retransmissions, every `v` ms. -/
def Sends (N v : Nat) (log : List Event) : Prop := ∀ n1 t1 k, Event.config n1 t1 k ∈ log → n1 ≤ N ∧ t1 = v

/-- The timers at the receiver of requests: responses are kept (N1 and T1 are not zero), for at least `K` ms. -/
def Keeps (K : Nat) (log : List Event) : Prop := ∀ n1 t1 k, Event.config n1 t1 k ∈ log → n1 ≠ 0 ∧ t1 ≠ 0 ∧ K ≤ k

/-- C86: requests are processed at most once.  Assume that the timers are handled on time, that datagrams arrive within `D` ms or
never, that at the sender `a` requests are sent at most `N + 1` times, `v` ms apart, that at the receiver `b` responses are
kept for at least `K` ms, where N * v + D < K, that the application of `b` answers requests at once, and does not close the endpoint
(with responses that are kept), and that `a` has used no sequence number twice.  Then no request of `a` - whatever is
lost, delayed, duplicated or overtaken by others - gets to rx_msg_cb() of `b` twice: two messages of `a` that were received by `b`,
with the same sequence number, and passed to rx_msg_cb() are the same. -/
theorem C86_at_most_once {D : Nat} {B : Sockaddr → Prop} {w : Net} (h : TimedReached D B w) (hp : Proper w) {a b : Sockaddr}
    {N v K : Nat} (hB : B b) (hf : (w a).freshSeqs) (hs : Sends N v (w a).log) (hk : Keeps K (w b).log)
    (hc : ∀ id, Event.dropped id ∉ (w b).log) (hK : N * v + D < K)
    {k k' q q' y y'} (hy : Event.received k y ∈ (w b).log) (hy' : Event.received k' y' ∈ (w b).log)
    (ha : y.remote = a) (ha' : y'.remote = a) (hr : y.isResponse = false) (hr' : y'.isResponse = false)
    (ht : y.h.type ≠ 1) (ht' : y'.h.type ≠ 1) (hq : y.h.seq = y'.h.seq)
    (hd : Event.dispatch k q ∈ (w b).log) (hd' : Event.dispatch k' q' ∈ (w b).log) : k = k' := by
  -- requests are passed to rx_msg_cb() without a request that they answer
  have none_of : ∀ {k y q}, Event.received k y ∈ (w b).log → y.isResponse = false → Event.dispatch k q ∈ (w b).log → q = none := by
    intro k y q hy hr hd
    cases q with
    | none => rfl
    | some i =>
      obtain ⟨rx, n1, t1, m, g1, g2, g3, _⟩ := (h.net.reached b).refInv.ev _ hd
      rw [(h.net.reached b).numbered.one _ _ _ hy g1, hr] at g3
      cases g3
  cases none_of hy hr hd
  cases none_of hy' hr' hd'
  clear none_of
  have before : ∀ {w w' : Net}, (∀ a, Onward (w a) (w' a)) → (w' a).freshSeqs → Sends N v (w' a).log → Keeps K (w' b).log →
      (∀ id, Event.dropped id ∉ (w' b).log) → (w a).freshSeqs ∧ Sends N v (w a).log ∧ Keeps K (w b).log ∧
      ∀ id, Event.dropped id ∉ (w b).log := fun on h1 h2 h3 h4 =>
    ⟨(on a).fresh h1, fun _ _ _ hx => h2 _ _ _ ((on a).mem hx), fun _ _ _ hx => h3 _ _ _ ((on b).mem hx),
      fun id hx => h4 id ((on b).mem hx)⟩
  induction h generalizing k k' y y' with
  | start w hw =>
    obtain ⟨_, _, _, _, _, _, h⟩ := hw b
    rw [h] at hy
    cases List.mem_singleton.1 hy
  | @«local» w c op ep' hw hl hna hst ih =>
    have on := set_onward (w := w) (Op.onward (hw.net.reached c) hst)
    obtain ⟨b1, b2, b3, b4⟩ := before on hf hs hk hc
    exact ih (hp.before on) b1 b2 b3 b4 (local_rx hl hst hy rfl) (local_rx hl hst hy' rfl) ha ha' hr hr' ht ht' hq
      (local_rx hl hst hd rfl) (local_rx hl hst hd' rfl)
  | @advance w c ms hw hdue ih =>
    have hst := advance_step (w c) ms
    have hl : Op.isLocal (.advance ms) := trivial
    have on := set_onward (w := w) (Op.onward (hw.net.reached c) hst)
    obtain ⟨b1, b2, b3, b4⟩ := before on hf hs hk hc
    exact ih (hp.before on) b1 b2 b3 b4 (local_rx hl hst hy rfl) (local_rx hl hst hy' rfl) ha ha' hr hr' ht ht' hq
      (local_rx hl hst hd rfl) (local_rx hl hst hd' rfl)
  | @deliver w s r why id o t l rs ep' hw hsend ht1 ht2 hrx hl hans ih =>
    have on := set_onward (w := w) (Op.onward (op := .rx s o rs) (hw.net.reached r) hrx)
    have hp0 := hp.before on
    obtain ⟨b1, b2, b3, b4⟩ := before on hf hs hk hc
    by_cases hb : b = r
    case neg =>
      rw [Net.set_other _ _ hb] at hy hy' hd hd'
      exact ih hp0 b1 b2 b3 b4 hy hy' ha ha' hr hr' ht ht' hq hd hd'
    subst hb
    rw [Net.set_same] at hy hy' hd hd'
    rcases hw.net.arrival hp0 hsend hrx with hx | ⟨x, x1, x2, x3⟩
    · rw [hx] at hy hy' hd hd'
      exact ih hp0 b1 b2 b3 b4 hy hy' ha ha' hr hr' ht ht' hq hd hd'
    have hrch := hw.net.reached b
    have num := hrch.numbered
    obtain ⟨l', hl', n1, n2, n3⟩ := hrch.rxNew x2
    cases List.append_cancel_right (hl'.symm.trans hl)
    -- a request that was dispatched before is answered from the cache now
    have key : ∀ {k y k'}, Event.received k y ∈ (w b).log → Event.dispatch k none ∈ (w b).log → y.remote = a →
        y.isResponse = false → y.h.type ≠ 1 → x.remote = a → x.isResponse = false → x.h.type ≠ 1 → y.h.seq = x.h.seq →
        Event.dispatch k' none ∈ l → False := by
      intro k y k' hy hd ha hr ht hxa hxr hxt hq hdl
      obtain ⟨i, m1, m2, m, te, id', j1, j2, resp, τ, g1, g2, g3, g4, g5, g6, g7, g8, g9⟩ := hw.answered hp0 hB hy hd hr ht
      obtain ⟨i1, i2, m', p1, p2, p3, p4, p5⟩ := x3 hxr hxt
      rw [ha] at g1 g4
      have hsa : s = a := x1.symm.trans hxa
      subst hsa
      have hsame := same_request (hw.net.reached s) b1 g1 p1 (n := y.h.seq) (by simp [Event.requestNumber, g2, g3])
        (by simp [Event.requestNumber, p2, p4, hq])
      injection hsame with e1 e2 e3 e4
      subst e1 e4
      -- the time
      have hwin := (hw.punctual s).window (fun _ _ _ hx => (b2 _ _ _ hx).2) g1 g4 p5
      have hN : m1 ≤ N := by
        obtain ⟨κ, hκ⟩ := (hw.net.reached s).configured.2 _ _ _ _ g1
        exact (b2 _ _ _ hκ).1
      have hmul : m1 * v ≤ N * v := Nat.mul_le_mul_right _ hN
      obtain ⟨t0, v0, κ, hlast⟩ := lastSent_some g8
      have htau := hrch.answered_once g5 g6 g8 (lastSent_mem hlast)
      subst htau
      obtain ⟨lc, c1, c2, c3, hlc⟩ := hrch.begins
      have hκ : K ≤ κ := by
        rw [hlc] at hlast b3
        obtain ⟨xx, hx⟩ := lastSent_config hlast
        exact (b3 _ _ _ hx).2.2
      obtain ⟨κ', hj⟩ := hrch.configured.2 _ _ _ _ g5
      obtain ⟨hj1, hj2, _⟩ := b3 _ _ _ hj
      have hdrop : drops id' (w b).log = 0 := by
        unfold drops
        rw [List.countP_eq_zero]
        intro e he
        cases e
        case dropped => exact absurd he (b4 _)
        all_goals simp
      have hkeep := C55_response_kept hrch g5 g6 hj1 hj2 hlast hdrop (by omega)
      obtain ⟨e, he, hid⟩ := hkeep
      obtain ⟨_, _, resp', _, hlf, hsm, _⟩ := hrch.inv.response (look_of_mem hrch.inv.nodupResps he)
      rw [hid] at hlf
      have hresp : resp' = resp := by
        have := ((hlf.tally.info _ _ _).1 ((hlf.tally.info _ _ _).2 rfl)).symm.trans ((hlf.tally.info _ _ _).1 g5)
        simp only [Option.some.injEq, Prod.mk.injEq] at this
        exact this.2.2
      obtain ⟨l2, _, _, _, _, _, q1, _, _, _, _, _, _, q2, _⟩ := C50_answered_from_cache hrch x2 hxr
        ⟨e, he, by rw [hsm.seq, hresp, g7, hq]⟩
      cases List.append_cancel_right (q1.symm.trans hl)
      have : (k', none) ∈ dispatches l := by
        unfold dispatches
        exact List.mem_filterMap.2 ⟨_, hdl, rfl⟩
      rw [q2] at this
      cases this
    -- which of the two is new
    have old : ∀ {k y}, Event.received k y ∈ ep'.log → Event.dispatch k none ∈ ep'.log →
        (k = (w b).nextId ∧ y = x ∧ Event.dispatch k none ∈ l) ∨
        (Event.received k y ∈ (w b).log ∧ Event.dispatch k none ∈ (w b).log) := by
      intro k y hy hd
      rw [hl] at hy hd
      rcases List.mem_append.1 hy with hy | hy <;> rcases List.mem_append.1 hd with hd | hd
      · exact .inl ⟨(n2 _ _ hy).1, (n2 _ _ hy).2, hd⟩
      · obtain ⟨rfl, rfl⟩ := n2 _ _ hy
        obtain ⟨y', hy'⟩ := num.dispatched _ _ hd
        exact absurd (num.lt _ _ hy') (Nat.lt_irrefl _)
      · have := n3 _ _ hd
        have h2 := num.lt _ _ hy
        omega
      · exact .inr ⟨hy, hd⟩
    rcases old hy hd with ⟨o1, o2, o3⟩ | ⟨o1, o2⟩ <;> rcases old hy' hd' with ⟨o1', o2', o3'⟩ | ⟨o1', o2'⟩
    · rw [o1, o1']
    · subst o2
      exact (key o1' o2' ha' hr' ht' ha hr ht hq.symm o3).elim
    · subst o2'
      exact (key o1 o2 ha hr ht ha' hr' ht' hq o3').elim
    · exact ih hp0 b1 b2 b3 b4 o1 o1' ha ha' hr hr' ht ht' hq o2 o2'

/-- C86, with the default timer definitions (osmo_pfcp_tdefs: N1 = 3, T1 = 3000 ms, KEEP_RESP = 10000 ms) at both ends: requests are
processed at most once if datagrams arrive in less than one second, or never. -/
theorem C86_default_timers {D : Nat} {B : Sockaddr → Prop} {w : Net} (h : TimedReached D B w) (hp : Proper w) {a b : Sockaddr}
    (hB : B b) (hf : (w a).freshSeqs) (hD : D < 1000)
    (hs : ∀ n1 t1 k, Event.config n1 t1 k ∈ (w a).log ++ (w b).log → n1 = 3 ∧ t1 = 3000 ∧ k = 10000)
    (hc : ∀ id, Event.dropped id ∉ (w b).log)
    {k k' q q' y y'} (hy : Event.received k y ∈ (w b).log) (hy' : Event.received k' y' ∈ (w b).log)
    (ha : y.remote = a) (ha' : y'.remote = a) (hr : y.isResponse = false) (hr' : y'.isResponse = false)
    (ht : y.h.type ≠ 1) (ht' : y'.h.type ≠ 1) (hq : y.h.seq = y'.h.seq)
    (hd : Event.dispatch k q ∈ (w b).log) (hd' : Event.dispatch k' q' ∈ (w b).log) : k = k' := by
  refine C86_at_most_once h hp (N := 3) (v := 3000) (K := 10000) hB hf ?_ ?_ hc (by omega) hy hy' ha ha' hr hr' ht ht' hq hd hd'
  · intro n1 t1 k hx
    obtain ⟨rfl, rfl, _⟩ := hs n1 t1 k (List.mem_append_left _ hx)
    exact ⟨Nat.le_refl _, rfl⟩
  · intro n1 t1 k hx
    obtain ⟨rfl, rfl, rfl⟩ := hs n1 t1 k (List.mem_append_right _ hx)
    exact ⟨by decide, by decide, Nat.le_refl _⟩

/-! ### Examples -/

/-- The network of new endpoints. -/
theorem exNet_timed (D : Nat) (B : Sockaddr → Prop) : TimedReached D B exNet := .start _ fun _ => ⟨_, _, _, _, _, _, rfl⟩

/-- A network that is found by running it. -/
theorem timed_found {D : Nat} {all : Bool} {ops : List TimedOp} (as : List Sockaddr) (check : Net → Bool)
    (h : (timedExec D all ops exNet).any check = true) (has : ops.map TimedOp.where ⊆ as) :
    ∃ w, TimedReached D (fun _ => all = true) w ∧ check w = true ∧ ∀ a, a ∉ as → w a = exEp := by
  cases hw : timedExec D all ops exNet with
  | none => rw [hw] at h; cases h
  | some w =>
    rw [hw] at h
    obtain ⟨h1, h2⟩ := timedExec_reached (exNet_timed D _) hw
    exact ⟨w, h1, h, fun a ha => h2 a fun hx => ha (has hx)⟩

/-- Message `k`, a request of `a` with sequence number 1, was received. -/
def gotB (k : Nat) (a : Sockaddr) (log : List Event) : Bool :=
  log.any fun e => match e with
    | .received j y => decide (j = k ∧ y.remote = a ∧ y.isResponse = false ∧ y.h.type ≠ 1 ∧ y.h.seq = 1)
    | _ => false

theorem gotB_ok {k a log} (h : gotB k a log = true) : ∃ y, Event.received k y ∈ log ∧ y.remote = a ∧ y.isResponse = false ∧
    y.h.type ≠ 1 ∧ y.h.seq = 1 := by
  obtain ⟨e, he, hx⟩ := List.any_eq_true.1 h
  split at hx
  · obtain ⟨rfl, h'⟩ := of_decide_eq_true hx
    exact ⟨_, he, h'⟩
  · cases hx

/-- rx_msg_cb() got message `k`. -/
def toldB (k : Nat) (log : List Event) : Bool := decide ((k, none) ∈ dispatches log)

theorem toldB_ok {k log} : toldB k log = true ↔ Event.dispatch k none ∈ log := by
  simp [toldB, dispatches, List.mem_filterMap]
  constructor
  · rintro ⟨e, he, hx⟩
    split at hx
    · cases hx; exact he
    · cases hx
  · exact fun h => ⟨_, h, rfl⟩

/-- The timers. -/
def sendsB (N v : Nat) (log : List Event) : Bool :=
  log.all fun e => match e with | .config n1 t1 _ => decide (n1 ≤ N ∧ t1 = v) | _ => true
def keepsB (K : Nat) (log : List Event) : Bool :=
  log.all fun e => match e with | .config n1 t1 k => decide (n1 ≠ 0 ∧ t1 ≠ 0 ∧ K ≤ k) | _ => true
def neverClosedB (log : List Event) : Bool := log.all fun e => match e with | .dropped _ => false | _ => true

theorem sendsB_ok {N v log} (h : sendsB N v log = true) : Sends N v log := fun _ _ _ hx => by
  simpa using List.all_eq_true.1 h _ hx
theorem keepsB_ok {K log} (h : keepsB K log = true) : Keeps K log := fun _ _ _ hx => by
  simpa using List.all_eq_true.1 h _ hx
theorem neverClosedB_ok {log} (h : neverClosedB log = true) : ∀ id, Event.dropped id ∉ log := fun _ hx => by
  cases List.all_eq_true.1 h _ hx

/-- An Association Release Request of A to B, as it is sent, and the response of B. -/
def exReleaseOctets : List UInt8 := [32, 9, 0, 13, 0, 0, 1, 0, 0, 60, 0, 5, 0, 127, 0, 0, 2]
def exReleased : PMsg :=
  { remote := exA, isResponse := true, h := { version := 1, type := 10, seq := 1 }, causeAt := some 1, nodeIdAt := some 0
    ies := [[.leaf (.nodeId (.v4 (.inet 0x0a000002 0)))], [.leaf (.cause 1)]] }

/-- A sends the request, B gets it (after 20 ms). -/
def exFirst (onRx : App) : List TimedOp :=
  [.at exA (.app (.bind true (.tx { exRelease with remote := exB } true .done .done))), .at exB (.app (.bind true .done)),
   .pass exB 20, .deliver exA exB exReleaseOctets [{ onRx }]]

/-- A retransmits it. -/
def exAgain : List TimedOp := [.pass exA 100, .at exA (.reqTimer 0 true .done)]

/-- B answers, but the response is lost; A retransmits the request twice, B gets both (the first of them twice). -/
def exLostAnswer : List TimedOp :=
  exFirst (.tx exReleased true .done .done) ++ exAgain ++ [.pass exB 100, .deliver exA exB exReleaseOctets [],
    .deliver exA exB exReleaseOctets []] ++ exAgain ++ [.pass exB 100, .deliver exA exB exReleaseOctets []]

set_option maxRecDepth 100000 in
theorem exLostAnswer_found : ((timedExec 50 true exLostAnswer exNet).any fun w => w.properB [exA, exB] && freshB (w exA) &&
    sendsB 2 100 (w exA).log && keepsB 1000 (w exB).log && neverClosedB (w exB).log && gotB 0 exA (w exB).log && gotB 2 exA (w exB).log &&
    gotB 3 exA (w exB).log && gotB 4 exA (w exB).log && toldB 0 (w exB).log && !toldB 2 (w exB).log &&
    decide ((dispatches (w exB).log).length = 1)) = true := by decide +kernel

/-- The hypotheses of C86 are met, by a request that is received four times: rx_msg_cb() gets it once. -/
example : ∃ w, TimedReached 50 (fun _ => true = true) w ∧ Proper w ∧ (w exA).freshSeqs ∧ Sends 2 100 (w exA).log ∧
    Keeps 1000 (w exB).log ∧ (∀ id, Event.dropped id ∉ (w exB).log) ∧ 2 * 100 + 50 < 1000 ∧
    (∀ k ∈ [0, 2, 3, 4], ∃ y, Event.received k y ∈ (w exB).log ∧ y.remote = exA ∧ y.isResponse = false ∧ y.h.type ≠ 1 ∧ y.h.seq = 1) ∧
    dispatches (w exB).log = [(0, none)] := by
  obtain ⟨w, h1, h2, h3⟩ := timed_found [exA, exB] _ exLostAnswer_found (by decide)
  simp only [Bool.and_eq_true, decide_eq_true_eq] at h2
  obtain ⟨⟨⟨⟨⟨⟨⟨⟨⟨⟨⟨c1, c2⟩, c3⟩, c4⟩, c5⟩, c6⟩, c7⟩, c8⟩, c9⟩, c10⟩, -⟩, c12⟩ := h2
  refine ⟨w, h1, Net.properB_ok c1 fun a ha => (by rw [h3 a ha]; rfl), freshB_ok c2, sendsB_ok c3, keepsB_ok c4, neverClosedB_ok c5,
    by decide, ?_, ?_⟩
  · intro k hk
    simp only [List.mem_cons, List.not_mem_nil, or_false] at hk
    rcases hk with rfl | rfl | rfl | rfl
    · exact gotB_ok c6
    · exact gotB_ok c7
    · exact gotB_ok c8
    · exact gotB_ok c9
  · have : (0, none) ∈ dispatches (w exB).log := of_decide_eq_true c10
    match hx : dispatches (w exB).log, c12 with
    | [x], _ => rw [hx] at this; rw [List.mem_singleton.1 this]

/-- What two messages are that rx_msg_cb() of `b` got although they are the same request of `a`. -/
def Twice (w : Net) (a b : Sockaddr) : Prop :=
  ∃ k k' y y', k ≠ k' ∧ Event.received k y ∈ (w b).log ∧ Event.received k' y' ∈ (w b).log ∧ y.remote = a ∧ y'.remote = a ∧
    y.isResponse = false ∧ y'.isResponse = false ∧ y.h.type ≠ 1 ∧ y'.h.type ≠ 1 ∧ y.h.seq = y'.h.seq ∧
    Event.dispatch k none ∈ (w b).log ∧ Event.dispatch k' none ∈ (w b).log

def twiceB (k k' : Nat) (a : Sockaddr) (log : List Event) : Bool :=
  decide (k ≠ k') && gotB k a log && gotB k' a log && toldB k log && toldB k' log

theorem twiceB_ok {k k' a b} {w : Net} (h : twiceB k k' a (w b).log = true) : Twice w a b := by
  unfold twiceB at h
  simp only [Bool.and_eq_true, decide_eq_true_eq] at h
  obtain ⟨⟨⟨⟨h1, h2⟩, h3⟩, h4⟩, h5⟩ := h
  obtain ⟨y, a1, a2, a3, a4, a5⟩ := gotB_ok h2
  obtain ⟨y', b1, b2, b3, b4, b5⟩ := gotB_ok h3
  exact ⟨k, k', y, y', h1, a1, b1, a2, b2, a3, b3, a4, b4, by rw [a5, b5], toldB_ok.1 h4, toldB_ok.1 h5⟩

/-- B does not answer at once; A retransmits the request. -/
def exSlow : List TimedOp := exFirst .done ++ exAgain ++ [.pass exB 100, .deliver exA exB exReleaseOctets []]

set_option maxRecDepth 100000 in
theorem exSlow_found : ((timedExec 50 false exSlow exNet).any fun w => w.properB [exA, exB] && freshB (w exA) &&
    sendsB 2 100 (w exA).log && keepsB 1000 (w exB).log && neverClosedB (w exB).log && twiceB 0 1 exA (w exB).log) = true := by decide +kernel

/-- C86: that applications answer at once is needed: otherwise a retransmission is taken as a new request. -/
theorem C86_slow_application : ∃ w a b, TimedReached 50 (fun _ => False) w ∧ Proper w ∧ (w a).freshSeqs ∧ Sends 2 100 (w a).log ∧
    Keeps 1000 (w b).log ∧ (∀ id, Event.dropped id ∉ (w b).log) ∧ Twice w a b := by
  obtain ⟨w, h1, h2, h3⟩ := timed_found [exA, exB] _ exSlow_found (by decide)
  simp only [Bool.and_eq_true] at h2
  obtain ⟨⟨⟨⟨⟨c1, c2⟩, c3⟩, c4⟩, c5⟩, c6⟩ := h2
  have : (fun _ : Sockaddr => false = true) = fun _ => False := by funext; simp
  rw [this] at h1
  exact ⟨w, exA, exB, h1, Net.properB_ok c1 fun a ha => (by rw [h3 a ha]; rfl), freshB_ok c2, sendsB_ok c3, keepsB_ok c4,
    neverClosedB_ok c5, twiceB_ok c6⟩

/-- B keeps responses for 200 ms only.  The response is lost; A retransmits the request twice, the first of these datagrams
is lost, the other arrives when the response has just expired. -/
def exExpired : List TimedOp :=
  [.at exB (.app (.setTimers 2 100 200 .done)),
   .at exA (.app (.bind true (.tx { exRelease with remote := exB } true .done .done))), .at exB (.app (.bind true .done)),
   .deliver exA exB exReleaseOctets [{ onRx := .tx exReleased true .done .done }]] ++ exAgain ++ exAgain ++
  [.pass exB 200, .at exB (.respTimer 1), .deliver exA exB exReleaseOctets [{ onRx := .tx exReleased true .done .done }]]

set_option maxRecDepth 100000 in
theorem exExpired_found : ((timedExec 0 true exExpired exNet).any fun w => w.properB [exA, exB] && freshB (w exA) &&
    sendsB 2 100 (w exA).log && keepsB 200 (w exB).log && neverClosedB (w exB).log && twiceB 0 2 exA (w exB).log) = true := by decide +kernel

/-- C86: that responses are kept for more than N * v + D is needed; already if they are kept for exactly this long, a
request may be processed twice. -/
theorem C86_bound_is_sharp : ∃ w a b D N v K, TimedReached D (fun _ => True) w ∧ Proper w ∧ (w a).freshSeqs ∧ Sends N v (w a).log ∧
    Keeps K (w b).log ∧ (∀ id, Event.dropped id ∉ (w b).log) ∧ N * v + D = K ∧ Twice w a b := by
  obtain ⟨w, h1, h2, h3⟩ := timed_found [exA, exB] _ exExpired_found (by decide)
  simp only [Bool.and_eq_true] at h2
  obtain ⟨⟨⟨⟨⟨c1, c2⟩, c3⟩, c4⟩, c5⟩, c6⟩ := h2
  have : (fun _ : Sockaddr => true = true) = fun _ => True := by funext; simp
  rw [this] at h1
  exact ⟨w, exA, exB, 0, 2, 100, 200, h1, Net.properB_ok c1 fun a ha => (by rw [h3 a ha]; rfl), freshB_ok c2, sendsB_ok c3, keepsB_ok c4,
    neverClosedB_ok c5, rfl, twiceB_ok c6⟩

/-- B answers, closes the endpoint and binds it again; A retransmits the request. -/
def exReopened : List TimedOp :=
  exFirst (.tx exReleased true .done .done) ++ [.at exB (.app (.close (.bind true .done)))] ++ exAgain ++
  [.pass exB 100, .deliver exA exB exReleaseOctets [{ onRx := .tx exReleased true .done .done }]]

set_option maxRecDepth 100000 in
theorem exReopened_found : ((timedExec 50 true exReopened exNet).any fun w => w.properB [exA, exB] && freshB (w exA) &&
    sendsB 2 100 (w exA).log && keepsB 1000 (w exB).log && twiceB 0 2 exA (w exB).log) = true := by decide +kernel

/-- C86: that the endpoint is not closed is needed: when it is open again, a retransmission is taken as a new request. -/
theorem C86_closed_between : ∃ w a b, TimedReached 50 (fun _ => True) w ∧ Proper w ∧ (w a).freshSeqs ∧ Sends 2 100 (w a).log ∧
    Keeps 1000 (w b).log ∧ Twice w a b := by
  obtain ⟨w, h1, h2, h3⟩ := timed_found [exA, exB] _ exReopened_found (by decide)
  simp only [Bool.and_eq_true] at h2
  obtain ⟨⟨⟨⟨c1, c2⟩, c3⟩, c4⟩, c6⟩ := h2
  have : (fun _ : Sockaddr => true = true) = fun _ => True := by funext; simp
  rw [this] at h1
  exact ⟨w, exA, exB, h1, Net.properB_ok c1 fun a ha => (by rw [h3 a ha]; rfl), freshB_ok c2, sendsB_ok c3, keepsB_ok c4, twiceB_ok c6⟩

end Verif.Props
