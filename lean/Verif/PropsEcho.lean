/-
Endpoints do not keep each other busy: C118.
-/
import Verif.EndpointQuiet
import Verif.PropsTrace
import Verif.PropsNet

namespace Verif.Props
open Verif Spec

theorem bundle_type (m : Hdr × Struct IeVal) : (bundle [m])[1]? = some (octet m.1.type) := by
  unfold bundle
  rw [List.map_cons, bundleOctets_cons]
  simp [Spec.msgOctets]

theorem isResponseDatagram_bundle {m : Hdr × Struct IeVal} (hg : GoodMsg m) :
    isResponseDatagram (bundle [m]) = true ↔ m.1.type ∈ responseTypes := by
  unfold isResponseDatagram
  rw [bundle_type, List.any_eq_true]
  have hlt := hg.1.type
  constructor
  · rintro ⟨t, ht, he⟩
    have he : octet m.1.type = octet t := by simpa using he
    have htl : t < 256 := (by decide : ∀ t ∈ responseTypes, t < 256) t ht
    have : m.1.type = t := by
      have := congrArg UInt8.toNat he
      unfold octet at this
      simp only [UInt8.toNat_ofNat'] at this
      omega
    rw [this]; exact ht
  · intro h
    exact ⟨_, h, by simp⟩

/-- What travels in a network of proper applications is one message. -/
theorem datagram_is_message {w : Net} (h : NetReached w) (hp : Proper w) {s why id r o ok t}
    (hs : Event.send why id r o ok t ∈ (w s).log) :
    ∃ m : Hdr × Struct IeVal, GoodMsg m ∧ o = bundle [m] ∧ o.length < 2048 ∧
      ((∃ k, why = .heartbeatReply k ∨ why = .cachedReply k) → m.1.type ∈ responseTypes) := by
  have hrch := h.reached s
  have about : About id (.send why id r o ok t) → ∃ n1 t1 m, Event.passed id n1 t1 m ∈ (w s).log ∧ GoodMsg (m.h, m.ies) ∧
      o = bundle [(m.h, m.ies)] ∧ o.length < 2048 := by
    intro ha
    obtain ⟨st, h1, h2, h3⟩ := hrch.inv.life id
    obtain ⟨n1, t1, m, h4, h5, h6⟩ := Life.sends h1 hs ha
    obtain ⟨p1, p2, _⟩ := hp.sendable _ _ _ _ _ h4
    obtain ⟨e1, e2⟩ := transportable_encode p1 p2 h6
    exact ⟨n1, t1, m, h4, transportable_good p2, e1, e2⟩
  cases why with
  | tx =>
    obtain ⟨n1, t1, m, _, h1, h2, h3⟩ := about rfl
    exact ⟨_, h1, h2, h3, fun ⟨k, hk⟩ => by rcases hk with hk | hk <;> cases hk⟩
  | retrans =>
    obtain ⟨n1, t1, m, _, h1, h2, h3⟩ := about rfl
    exact ⟨_, h1, h2, h3, fun ⟨k, hk⟩ => by rcases hk with hk | hk <;> cases hk⟩
  | cachedReply j =>
    obtain ⟨n1, t1, m, h0, h1, h2, h3⟩ := about rfl
    refine ⟨_, h1, h2, h3, fun _ => ?_⟩
    obtain ⟨bs, b1, b2, b3⟩ := C117_trace hrch
    have hmem : Event.send (.cachedReply j) id r o ok t ∈ (bs.map (·.2.2)).flatten := by
      rw [← b1]
      exact List.mem_reverse.2 (List.mem_filter.2 ⟨hs, rfl⟩)
    obtain ⟨x, hx, hmem⟩ := List.mem_flatten.1 hmem
    obtain ⟨b, hb, rfl⟩ := List.mem_map.1 hx
    obtain ⟨hb', req, tail, c1, c2, c3⟩ := b3 b hb
    rw [c3] at hmem
    simp only [List.cons_append, List.mem_cons, List.mem_append] at hmem
    rcases hmem with hmem | (hmem | hmem) | hmem
    · cases hmem
    · rcases c1 with rfl | ⟨_, _, _, _, rfl⟩
      · cases hmem
      · cases List.mem_singleton.1 hmem
    · split at hmem
      · cases List.mem_singleton.1 hmem
      · cases hmem
    · cases c2 with
      | fresh => cases List.mem_singleton.1 hmem
      | @again id' n1' t1' resp o' ok' t' d1 d2 d3 d4 d5 =>
        cases List.mem_singleton.1 hmem
        obtain ⟨st, h1', h2', h3'⟩ := hrch.inv.life id
        have e1 := (h1'.tally.info _ _ _).1 h0
        have e2 := (h1'.tally.info _ _ _).1 d2
        rw [e1] at e2
        cases e2
        exact (hp.sendable _ _ _ _ _ d2).2.2.1 d3
      | told => cases List.mem_singleton.1 hmem
      | toldOn =>
        rcases List.mem_cons.1 hmem with hmem | hmem
        · cases hmem
        · cases List.mem_singleton.1 hmem
      | handed => cases List.mem_singleton.1 hmem
  | direct => exact absurd hs (hp.noDirect _ _ _ _ _ _)
  | heartbeatReq =>
    obtain ⟨q, h1, h2, h3⟩ := hrch.beats _ hs
    obtain ⟨g1, g2⟩ := heartbeat_bundle 1 (.inl rfl) q (w s).rts h2 hrch.rts_lt
    have hlen : o.length < 2048 := by rw [h3]; simp [heartbeatReqOctets]
    exact ⟨_, g1, by rw [g2, h3]; rfl, hlen, fun ⟨k, hk⟩ => by rcases hk with hk | hk <;> cases hk⟩
  | heartbeatReply j =>
    obtain ⟨y, h1, h2, h3, h4⟩ := hrch.beats _ hs
    obtain ⟨_, _, _, _, _, hf'⟩ := h.received h1
    obtain ⟨g1, g2⟩ := heartbeat_bundle 2 (.inr rfl) y.h.seq (w s).rts hf'.seq hrch.rts_lt
    have hlen : o.length < 2048 := by rw [h4]; simp [heartbeatRespOctets]
    exact ⟨_, g1, by rw [g2, h4]; rfl, hlen, fun _ => (by decide : 2 ∈ responseTypes)⟩

theorem unsent_split {l : List Event} (h : ∀ e ∈ l, unsent e = true) : txIds l = [] ∧ directSent l = 0 := by
  constructor
  · unfold txIds
    rw [List.filterMap_eq_nil_iff]
    intro e he
    have := h e he
    cases e with
    | send why i r o ok t => cases why <;> first | rfl | (cases this; done)
    | _ => rfl
  · unfold directSent
    rw [List.countP_eq_zero]
    intro e he
    have := h e he
    cases e with
    | send why i r o ok t => cases why <;> first | (cases this; done) | (intro h'; cases h')
    | _ => intro h'; cases h'

/-- What one delivery does, if the application sends nothing. -/
theorem quiet_delivery {w : Net} (h : NetReached w) (hp : Proper w) {s r why id o t rs ep'}
    (hs : Event.send why id r o true t ∈ (w s).log) (hq : ∀ x ∈ rs, React.silent x = true)
    (hr : (w r).rxDatagram s o rs = .ok ep') :
    ∃ l, ep'.log = l ++ (w r).log ∧ (∀ e ∈ l, unsent e = true) ∧ datagramsSent l ≤ (if isResponseDatagram o then 0 else 2) := by
  by_cases hsock : (w r).sock = true
  case neg =>
    refine ⟨[], ?_, by simp, Nat.zero_le _⟩
    unfold Ep.rxDatagram at hr
    dsimp only at hr
    rw [if_pos (.inl hsock)] at hr
    cases hr; rfl
  obtain ⟨m, hg, rfl, hlen, -⟩ := datagram_is_message h hp hs
  obtain ⟨x, x1, x2, x3, x4, hx⟩ := rxDatagram_single (h.reached r) hsock hg hlen hr
  have hh : (rs.headD {}).silent = true := by
    cases rs with
    | nil => rfl
    | cons y rs => exact hq y (.head _)
  obtain ⟨l, hl, hc⟩ := (handleRx_unsent hh (Mute.refl _) hx).ex
  refine ⟨l, hl, hc, ?_⟩
  obtain ⟨b, ⟨n, hn, hb⟩, hblk⟩ := rx_block (h.reached r) hx
  have : n = l := List.append_cancel_right (hn.symm.trans hl)
  subst this
  obtain ⟨s1, s2, s3⟩ := block_sends hblk
  obtain ⟨c1, c2⟩ := unsent_split hc
  rw [datagrams_split, c1, c2]
  rw [← hb] at s1 s2
  rw [← heartbeatReplies_rxEvents] at s1
  rw [← cachedReplies_rxEvents] at s2
  have hiff := isResponseDatagram_bundle hg
  rw [← x2, ← x4] at hiff
  have e : isResponseDatagram (bundle [m]) = x.isResponse := by
    cases h1 : isResponseDatagram (bundle [m]) <;> cases h2 : x.isResponse <;> simp_all
  rw [e]
  cases hresp : x.isResponse with
  | true =>
    rw [hresp] at s2
    have ht : x.h.type ≠ 1 := by
      intro ht
      have := x4.1 hresp
      rw [ht] at this
      revert this
      decide
    rw [if_neg ht] at s1
    simp only [if_pos] at s2 ⊢
    simp only [List.length_nil]
    omega
  | false =>
    rw [hresp] at s2
    simp only [List.length_nil, Bool.false_eq_true, if_false] at s2 ⊢
    split at s1 <;> omega

/-- C118: when a datagram is delivered that is a response, then the endpoint that receives it sends nothing by itself, as long as its
application does not.  When another one is delivered, it sends at most two: a Heartbeat Response, and a response that it has sent before. -/
theorem C118_delivery {w : Net} (h : NetReached w) (hp : Proper w) {s r why id o t rs ep'}
    (hs : Event.send why id r o true t ∈ (w s).log) (hq : ∀ x ∈ rs, React.silent x = true)
    (hr : (w r).rxDatagram s o rs = .ok ep') :
    ∃ l, ep'.log = l ++ (w r).log ∧ datagramsSent l ≤ (if isResponseDatagram o then 0 else 2) := by
  obtain ⟨l, h1, _, h2⟩ := quiet_delivery h hp hs hq hr
  exact ⟨l, h1, h2⟩

/-- The invariant of a run. -/
theorem Echoes.inv {w : Net} (h : NetReached w) (hp : Proper w) {n k w'} (he : Echoes w n k w') :
    NetReached w' ∧ Proper w' ∧ k ≤ 2 * n ∧ ∀ a, ∃ l, (w' a).log = l ++ (w a).log ∧
      ∀ why id r o ok t, Event.send why id r o ok t ∈ l → isResponseDatagram o = true := by
  induction he with
  | refl => exact ⟨h, hp, Nat.le_refl _, fun a => ⟨[], rfl, fun _ _ _ _ _ _ h => (by cases h)⟩⟩
  | @deliver n k w1 s r why id o t rs ep' l _ hs hq hr hl ih =>
    obtain ⟨h1, p1, k1, a1⟩ := ih
    obtain ⟨l', h2, hc, hle⟩ := quiet_delivery h1 p1 hs hq hr
    have : l' = l := List.append_cancel_right (h2.symm.trans hl)
    subst this
    have hn : NetReached (w1.set r ep') := h1.step (.deliver s r rs hs hr)
    have hold : ∀ a e, e ∈ (w1.set r ep' a).log → unsent e = false → e ∈ (w1 a).log := by
      intro a e he hce
      by_cases ha : a = r
      · subst ha
        rw [Net.set_same, hl] at he
        rcases List.mem_append.1 he with he | he
        · rw [hc e he] at hce; cases hce
        · exact he
      · rwa [Net.set_other _ _ ha] at he
    have hp' : Proper (w1.set r ep') :=
      ⟨fun a id n1 t1 m hm => p1.sendable a id n1 t1 m (hold a _ hm rfl), fun a id r o ok t hm => p1.noDirect a id r o ok t (hold a _ hm rfl)⟩
    refine ⟨hn, hp', ?_, fun a => ?_⟩
    · split at hle <;> rename_i hx <;> simp only [hx, if_true, if_false, Bool.false_eq_true] <;> omega
    · by_cases ha : a = r
      · subst ha
        rw [Net.set_same, hl]
        obtain ⟨l0, g1, g2⟩ := a1 a
        refine ⟨l' ++ l0, by rw [g1, List.append_assoc], fun why' id' r' o' ok' t' hm => ?_⟩
        rcases List.mem_append.1 hm with hm | hm
        · have hin : Event.send why' id' r' o' ok' t' ∈ (w1.set a ep' a).log := by
            rw [Net.set_same, hl]; exact List.mem_append_left _ hm
          obtain ⟨m, hg, rfl, _, ht⟩ := datagram_is_message hn hp' hin
          refine (isResponseDatagram_bundle hg).2 (ht ?_)
          have hcm := hc _ hm
          cases why' with
          | heartbeatReply j => exact ⟨j, .inl rfl⟩
          | cachedReply j => exact ⟨j, .inr rfl⟩
          | _ => cases hcm
        · exact g2 _ _ _ _ _ _ hm
      · rw [Net.set_other _ _ ha]
        exact a1 a

/-- C118: endpoints do not keep each other busy.  Whatever the state of the network, if from now on applications send nothing, then all that endpoints
send upon what is delivered - in any order, any number of times - are responses; and these are at most two for each delivery of a datagram that is
not a response: what is sent in the meantime, when it is delivered, causes nothing to be sent. -/
theorem C118_echoes {w w' : Net} (h : NetReached w) (hp : Proper w) {n k} (he : Echoes w n k w') :
    k ≤ 2 * n ∧ ∀ a, ∃ l, (w' a).log = l ++ (w a).log ∧
      ∀ why id r o ok t, Event.send why id r o ok t ∈ l → isResponseDatagram o = true :=
  (Echoes.inv h hp he).2.2

/-! ### A network in which this happens -/

/-- Deliveries to applications that do nothing, with what `Echoes` counts. -/
def echoExec : List (Sockaddr × Sockaddr × List UInt8) → Nat × Nat × Net → Option (Nat × Nat × Net)
  | [], x => some x
  | (s, r, o) :: l, (n, k, w) =>
    if (w s).log.any (Event.carries r o) then
      match (w r).rxDatagram s o [] with
      | .ok ep => echoExec l (n + (if isResponseDatagram o then 0 else 1),
          k + datagramsSent (ep.log.take (ep.log.length - (w r).log.length)), w.set r ep)
      | _ => none
    else none

theorem echoExec_echoes {w : Net} (h : NetReached w) (hp : Proper w) : ∀ (l : List (Sockaddr × Sockaddr × List UInt8)) {n k w1 n' k' w'},
    Echoes w n k w1 → echoExec l (n, k, w1) = some (n', k', w') → Echoes w n' k' w'
  | [], _, _, _, _, _, _, he, hx => by cases hx; exact he
  | (s, r, o) :: l, n, k, w1, n', k', w', he, hx => by
    unfold echoExec at hx
    split at hx
    · rename_i ha
      obtain ⟨e, he1, he2⟩ := List.any_eq_true.1 ha
      have hs : ∃ why id t, Event.send why id r o true t ∈ (w1 s).log := by
        cases e with
        | send why id r' o' ok t =>
          cases ok with
          | false => cases he2
          | true =>
            have : r' = r ∧ o' = o := by simpa [Event.carries] using he2
            obtain ⟨rfl, rfl⟩ := this
            exact ⟨why, id, t, he1⟩
        | _ => cases he2
      obtain ⟨why, id, t, hs⟩ := hs
      split at hx
      · rename_i ep hr
        obtain ⟨l', hl, _⟩ := rxDatagram_received ((Echoes.inv h hp he).1.reached r) hr
        have htk : ep.log.take (ep.log.length - (w1 r).log.length) = l' := by rw [hl]; simp
        rw [htk] at hx
        exact echoExec_echoes h hp l (.deliver s r [] he hs (fun _ h => (List.not_mem_nil h).elim) hr hl) hx
      · cases hx
    · cases hx

/-- A sends a Heartbeat Request; B receives it, and its application answers it, too. -/
def exEcho : List NetOp :=
  [.at exA (.app (.bind true (.tx { exReq with remote := exB } true .done .done))), .at exB (.app (.bind true .done)),
   .deliver exA exB exOctets [], .at exB (.app (.tx { exAnswer with remote := exA } true .done .done))]

/-- The request is delivered to B again, and what B has sent is delivered to A, more than once. -/
def exDeliveries : List (Sockaddr × Sockaddr × List UInt8) :=
  [(exA, exB, exOctets), (exB, exA, heartbeatRespOctets 1 2208988800), (exB, exA, heartbeatRespOctets 1 7), (exB, exA, heartbeatRespOctets 1 7)]

theorem exEcho_found : ((netExec exEcho exNet).any fun w => goodB [exA, exB] w &&
    (match echoExec exDeliveries (0, 0, w) with | some x => decide (x.1 = 1 ∧ x.2.1 = 2) | none => false)) = true := by decide +kernel

-- The bound is reached: one delivery that is not of a response, two datagrams.
example : ∃ w w', NetReached w ∧ Proper w ∧ Echoes w 1 2 w' := by
  obtain ⟨w, h1, h2, h3⟩ := net_found [exA, exB] _ exEcho_found (by decide)
  rw [Bool.and_eq_true] at h2
  obtain ⟨h2, h4⟩ := h2
  have hp := (goodB_ok h2 h3).1
  split at h4
  · rename_i x hx
    have h4 := of_decide_eq_true h4
    obtain ⟨n, k, w'⟩ := x
    obtain ⟨rfl, rfl⟩ : n = 1 ∧ k = 2 := h4
    exact ⟨w, w', h1, hp, echoExec_echoes h1 hp _ .refl hx⟩
  · cases h4

end Verif.Props
