/-
Lemmas about a network of endpoints.
-/
import Verif.SpecNet
import Verif.PropsSize
import Verif.PropsPeer
import Verif.PropsMeaning

namespace Verif
open Spec Props

/-! ### Where sent octets come from -/

theorem Life.sends {id log s} (h : Life id log s) {why r o ok t} (hs : Event.send why id r o ok t ∈ log)
    (ha : About id (.send why id r o ok t)) :
    ∃ n1 t1 m, Event.passed id n1 t1 m ∈ log ∧ m.remote = r ∧ m.encode = .ok o := by
  induction h with
  | nil => cases hs
  | @cons l s e s' hl hn ih =>
    rcases List.mem_cons.1 hs with rfl | hs
    · have hg := hl.tally.good
      have hi := hl.tally.info
      cases hn
      case other hx => exact absurd ha hx
      case refuse n1 t1 m ho => exact ⟨n1, t1, m, .tail _ ((hi _ _ _).2 rfl), rfl, ho⟩
      case send n1 t1 m ho => exact ⟨n1, t1, m, .tail _ ((hi _ _ _).2 rfl), rfl, ho⟩
      case retrans n1 t1 m left => exact ⟨n1, t1, m, .tail _ ((hi _ _ _).2 rfl), rfl, hg.1⟩
      case retransFail n1 t1 m left => exact ⟨n1, t1, m, .tail _ ((hi _ _ _).2 rfl), rfl, hg.1⟩
      case cached n1 t1 m k => exact ⟨n1, t1, m, .tail _ ((hi _ _ _).2 rfl), rfl, hg.1⟩
    · obtain ⟨n1, t1, m, h1, h2⟩ := ih hs
      exact ⟨n1, t1, m, .tail _ h1, h2⟩

/-- What the log says about heartbeats. -/
def BeatOk (ep : Ep) : Event → Prop
  | .send .heartbeatReq _ _ o _ _ => ∃ s, 1 ≤ s ∧ s < 2 ^ 24 ∧ o = heartbeatReqOctets s ep.rts
  | .send (.heartbeatReply k) _ r o _ _ =>
    ∃ y, Event.received k y ∈ ep.log ∧ y.h.type = 1 ∧ y.remote = r ∧ o = heartbeatRespOctets y.h.seq ep.rts
  | _ => True

theorem BeatOk.grow {ep ep' : Ep} {e} (h : BeatOk ep e) (l) (hl : ep'.log = l ++ ep.log) (hr : ep'.rts = ep.rts) : BeatOk ep' e := by
  unfold BeatOk at *
  split <;> simp_all only
  obtain ⟨y, h1, h2⟩ := h
  exact ⟨y, List.mem_append_right _ h1, h2⟩

theorem Micro.rts {a b : Ep × Ph} (h : Micro a b) : b.1.rts = a.1.rts := by
  cases h <;> simp [Ep.logs, Ep.note, Ep.dropCtx, Ep.closed, Ep.enqueue]
  case txQueued => split <;> simp

/-- Events other than heartbeats that a small step adds. -/
theorem Micro.beats {a b : Ep × Ph} (h : Micro a b) : ∃ l, b.1.log = l ++ a.1.log ∧ ∀ e ∈ l, BeatOk b.1 e := by
  have href : ∀ {ep : Ep} {why id m l}, Refused ep why id m l → why = .tx ∨ why = .retrans → ∀ e ∈ l, ∀ ep', BeatOk ep' e := by
    intro ep why id m l h hw e he ep'
    rcases h with ⟨rfl, _⟩ | ⟨o, _, rfl⟩
    · cases he
    · cases List.mem_singleton.1 he
      rcases hw with rfl | rfl <;> trivial
  cases h
  case txQueued ep ph m o _ _ _ =>
    refine ⟨[.returned ep.nextId none, .send .tx ep.nextId (ep.outgoing m).remote o true ep.now,
      .passed ep.nextId ep.n1 ep.t1 (ep.outgoing m)], ?_, by simp [BeatOk]⟩
    simp only [Ep.logs, Ep.enqueue]
    split <;> simp only [begun_log]
  case txLost ep ph m e l _ hl =>
    refine ⟨_, by simp only [Ep.logs, begun_log]; rfl, ?_⟩
    intro x hx
    simp only [List.mem_append, List.mem_cons, List.not_mem_nil, or_false] at hx
    rcases hx with ((rfl | rfl) | hx) | rfl
    · trivial
    · trivial
    · exact href hl (.inl rfl) x hx _
    · trivial
  case txLostCb ep ph m l _ _ hl =>
    refine ⟨_, by simp only [Ep.logs, begun_log]; rfl, ?_⟩
    intro x hx
    simp only [List.mem_append, List.mem_cons, List.not_mem_nil, or_false] at hx
    rcases hx with (rfl | hx) | rfl
    · trivial
    · exact href hl (.inl rfl) x hx _
    · trivial
  case txUnq => exact ⟨_, by simp only [Ep.logs, begun_log]; rfl, by simp [BeatOk]⟩
  case txUnqCb => exact ⟨_, by simp only [Ep.logs, begun_log]; rfl, by simp [BeatOk]⟩
  case close ep ph hc =>
    refine ⟨_, rfl, ?_⟩
    intro x hx
    simp only [List.mem_reverse, List.mem_flatten, List.mem_map] at hx
    obtain ⟨l, ⟨e, _, rfl⟩, hx⟩ := hx
    rcases List.mem_cons.1 hx with rfl | hx
    · trivial
    · cases List.mem_singleton.1 hx; trivial
  case timeout ep e l _ _ _ _ _ hl =>
    refine ⟨.freed e.id :: l, rfl, ?_⟩
    intro x hx
    rcases List.mem_cons.1 hx with rfl | hx
    · trivial
    · rcases hl with ⟨_, rfl⟩ | ⟨_, hl⟩
      · cases hx
      · exact href hl (.inr rfl) x hx _
  case timeoutCb ep e e' l _ _ _ _ _ hl _ _ _ _ _ _ =>
    refine ⟨.respCb e.id none ep.now :: l, rfl, ?_⟩
    intro x hx
    rcases List.mem_cons.1 hx with rfl | hx
    · trivial
    · rcases hl with ⟨_, rfl⟩ | ⟨_, hl⟩
      · cases hx
      · exact href hl (.inr rfl) x hx _
  case resend ep k e l m' _ _ _ _ hl =>
    refine ⟨l, rfl, ?_⟩
    rcases hl with ⟨rfl, _⟩ | ⟨o, ok, _, rfl⟩ <;> simp [BeatOk]
  case quiet ep ph e hq => exact ⟨[e], rfl, by cases hq <;> simp [BeatOk]⟩
  case heartbeat ep ph r l hl =>
    refine ⟨l, rfl, ?_⟩
    rcases hl with rfl | ⟨o, ok, ho, rfl⟩
    · simp
    · intro e he
      cases List.mem_singleton.1 he
      have := heartbeatReq_encode r ep.rts (nextSeqNr ep.seq).toNat
      unfold Ep.draw at ho
      rw [this] at ho
      cases ho
      exact ⟨_, (C30_in_range ep.seq).1, (C30_in_range ep.seq).2, rfl⟩
  case replied ep ph k m id o ok hk ht ho =>
    refine ⟨[_], rfl, ?_⟩
    intro e he
    cases List.mem_singleton.1 he
    rw [heartbeatResp_encode] at ho
    cases ho
    exact ⟨m, .tail _ hk, ht, rfl, rfl⟩
  case txLostEnd => exact ⟨[_, _], rfl, by simp [BeatOk]⟩
  case txUnqEnd => exact ⟨[_], rfl, by simp [BeatOk]⟩
  case expire => exact ⟨[_], rfl, by simp [BeatOk]⟩
  case retrans => exact ⟨[_], rfl, by simp [BeatOk]⟩
  case setTimers => exact ⟨[_], rfl, by simp [BeatOk]⟩
  case complete => exact ⟨[_], rfl, by simp [BeatOk]⟩
  case matched => exact ⟨[_], rfl, by simp [BeatOk]⟩
  case called => exact ⟨[_], rfl, by simp [BeatOk]⟩
  case dispatched => exact ⟨[_], rfl, by simp [BeatOk]⟩
  all_goals exact ⟨[], rfl, by simp⟩

theorem Reached.beats {ep : Ep} (h : Reached ep) : ∀ e ∈ ep.log, BeatOk ep e := by
  refine h.invariant (I := fun x => ∀ e ∈ x.1.log, BeatOk x.1 e) ?_ ?_
  · intro a b hi hm e he
    obtain ⟨l, hl, h1⟩ := hm.beats
    rw [hl] at he
    rcases List.mem_append.1 he with he | he
    · exact h1 e he
    · exact (hi e he).grow l hl hm.rts
  · intro _ _ _ _ _ _ e he
    cases List.mem_singleton.1 he
    trivial

/-! ### The sequence numbers of requests -/

theorem requestNumbers_append (l l' : List Event) : requestNumbers (l ++ l') = requestNumbers l ++ requestNumbers l' := by
  simp [requestNumbers]

theorem numAt_heartbeatReq {s : Nat} (hs : s < 2 ^ 24) (rts : Nat) : numAt (heartbeatReqOctets s rts) 4 3 = s := by
  have : ((heartbeatReqOctets s rts).drop 4).take 3 = be 3 s := by
    unfold heartbeatReqOctets
    simp only [List.append_assoc]
    rw [List.drop_append_of_le_length (by simp)]
    simp
  rw [numAt, this]
  exact loadBE_be_of_lt (by omega)

theorem Refused.numbers {ep : Ep} {why id m l} (h : Refused ep why id m l) (hw : why = .tx ∨ why = .retrans) :
    requestNumbers l = [] := by
  rcases h with ⟨rfl, _⟩ | ⟨o, _, rfl⟩
  · rfl
  · rcases hw with rfl | rfl <;> rfl

/-- The number of a request that is passed. -/
theorem passed_number (ep : Ep) (id n1 t1 : Nat) (m : PMsg) :
    requestNumbers [.passed id n1 t1 (ep.outgoing m)] = if m.isResponse then [] else [(nextSeqNr ep.seq).toNat] := by
  cases hm : m.isResponse
  · have : (ep.outgoing m).h.seq = (nextSeqNr ep.seq).toNat := by
      unfold Ep.outgoing PMsg.withNodeId
      rw [hm]
      simp only [Bool.false_eq_true, if_false]
      split <;> rfl
    simp [requestNumbers, hm, this]
  · simp [requestNumbers, hm]

/-- A small step adds at most one request, with the next number. -/
def NewNumbers (ep ep' : Ep) (l : List Nat) : Prop :=
  l = [] ∧ SeqStep ep ep' ∨
  l = [(nextSeqNr ep.seq).toNat] ∧ ep'.draws = ep.draws + 1 ∧ ep'.resets = ep.resets ∧ ep'.seq = nextSeqNr ep.seq

theorem begun_numbers (ep ep' : Ep) (m : PMsg) (h1 : ep'.draws = (ep.begun m).draws) (h2 : ep'.resets = (ep.begun m).resets)
    (h3 : ep'.seq = (ep.begun m).seq) (id n1 t1) :
    NewNumbers ep ep' (requestNumbers [.passed id n1 t1 (ep.outgoing m)]) := by
  rw [passed_number]
  unfold Ep.begun at h1 h2 h3
  by_cases hm : m.isResponse = true
  · rw [if_pos hm] at h1 h2 h3 ⊢
    exact .inl ⟨rfl, .same h1 h2 h3⟩
  · rw [if_neg hm] at h1 h2 h3 ⊢
    exact .inr ⟨rfl, h1, h2, h3⟩

theorem Micro.numbers {a b : Ep × Ph} (h : Micro a b) :
    ∃ l, b.1.log = l ++ a.1.log ∧ NewNumbers a.1 b.1 (requestNumbers l) := by
  have hstep := h.requests.1
  have plain : ∀ {l : List Event}, b.1.log = l ++ a.1.log → requestNumbers l = [] →
      ∃ l, b.1.log = l ++ a.1.log ∧ NewNumbers a.1 b.1 (requestNumbers l) :=
    fun hl hn => ⟨_, hl, .inl ⟨hn, hstep⟩⟩
  cases h
  case txQueued ep ph m o _ _ _ =>
    refine ⟨[.returned ep.nextId none, .send .tx ep.nextId (ep.outgoing m).remote o true ep.now] ++
      [.passed ep.nextId ep.n1 ep.t1 (ep.outgoing m)], ?_, ?_⟩
    · simp only [Ep.logs, Ep.enqueue]
      split <;> simp only [begun_log, List.cons_append, List.nil_append]
    · rw [requestNumbers_append]
      refine begun_numbers ep _ m ?_ ?_ ?_ ep.nextId ep.n1 ep.t1
      all_goals simp only [Ep.logs, Ep.enqueue]; split <;> rfl
  case txLost ep ph m e l _ hl =>
    refine ⟨_, by simp only [Ep.logs, begun_log]; rfl, ?_⟩
    rw [requestNumbers_append, requestNumbers_append, hl.numbers (.inl rfl)]
    refine begun_numbers ep _ m ?_ ?_ ?_ ep.nextId ep.n1 ep.t1 <;> rfl
  case txLostCb ep ph m l _ _ hl =>
    refine ⟨_, by simp only [Ep.logs, begun_log]; rfl, ?_⟩
    rw [requestNumbers_append, requestNumbers_append, hl.numbers (.inl rfl)]
    refine begun_numbers ep _ m ?_ ?_ ?_ ep.nextId ep.n1 ep.t1 <;> rfl
  case txUnq ep ph m o _ _ _ _ =>
    refine ⟨[.returned ep.nextId none, .send .tx ep.nextId (ep.outgoing m).remote o true ep.now] ++
      [.passed ep.nextId ep.n1 ep.t1 (ep.outgoing m)], by simp only [Ep.logs, begun_log]; rfl, ?_⟩
    rw [requestNumbers_append]
    refine begun_numbers ep _ m ?_ ?_ ?_ ep.nextId ep.n1 ep.t1 <;> rfl
  case txUnqCb ep ph m o _ _ _ _ _ =>
    refine ⟨[.respCb ep.nextId none ep.now, .send .tx ep.nextId (ep.outgoing m).remote o true ep.now] ++
      [.passed ep.nextId ep.n1 ep.t1 (ep.outgoing m)], by simp only [Ep.logs, begun_log]; rfl, ?_⟩
    rw [requestNumbers_append]
    refine begun_numbers ep _ m ?_ ?_ ?_ ep.nextId ep.n1 ep.t1 <;> rfl
  case close ep ph hc =>
    refine plain rfl ?_
    unfold requestNumbers
    rw [List.filterMap_eq_nil_iff]
    intro x hx
    simp only [List.mem_reverse, List.mem_flatten, List.mem_map] at hx
    obtain ⟨l, ⟨e, _, rfl⟩, hx⟩ := hx
    rcases List.mem_cons.1 hx with rfl | hx
    · rfl
    · cases List.mem_singleton.1 hx; rfl
  case timeout ep e l _ _ _ _ _ hl =>
    refine plain (l := .freed e.id :: l) rfl ?_
    rcases hl with ⟨_, rfl⟩ | ⟨_, hl⟩
    · rfl
    · exact hl.numbers (.inr rfl)
  case timeoutCb ep e e' l _ _ _ _ _ hl _ _ _ _ _ _ =>
    refine plain (l := .respCb e.id none ep.now :: l) rfl ?_
    rcases hl with ⟨_, rfl⟩ | ⟨_, hl⟩
    · rfl
    · exact hl.numbers (.inr rfl)
  case resend ep k e l m' _ _ _ _ hl =>
    refine plain (l := l) rfl ?_
    rcases hl with ⟨rfl, _⟩ | ⟨o, ok, _, rfl⟩ <;> rfl
  case quiet ep ph e hq => exact plain (l := [e]) rfl (by cases hq <;> rfl)
  case heartbeat ep ph r l hl =>
    rcases hl with rfl | ⟨o, ok, ho, rfl⟩
    · exact plain (l := []) rfl rfl
    · refine ⟨[.send .heartbeatReq ep.nextId r o ok ep.now], rfl, .inr ⟨?_, rfl, rfl, rfl⟩⟩
      have := heartbeatReq_encode r ep.rts (nextSeqNr ep.seq).toNat
      unfold Ep.draw at ho
      rw [this] at ho
      cases ho
      simp [requestNumbers, numAt_heartbeatReq (C30_in_range ep.seq).2]
  case replied => exact plain (l := [_]) rfl rfl
  case txLostEnd => exact plain (l := [_, _]) rfl rfl
  case txUnqEnd => exact plain (l := [_]) rfl rfl
  case expire => exact plain (l := [_]) rfl rfl
  case retrans => exact plain (l := [_]) rfl rfl
  case setTimers => exact plain (l := [_]) rfl rfl
  case complete => exact plain (l := [_]) rfl rfl
  case matched => exact plain (l := [_]) rfl rfl
  case called => exact plain (l := [_]) rfl rfl
  case dispatched => exact plain (l := [_]) rfl rfl
  all_goals exact plain (l := []) rfl rfl

theorem nextSeqNr_small (u : UInt32) (h : u.toNat + 1 < 2 ^ 24) : (nextSeqNr u).toNat = u.toNat + 1 := by
  rw [nextSeqNr_toNat, if_neg (by omega)]
  omega

/-- As long as the counter is not set, and does not wrap around, it counts. -/
structure Counts (ep : Ep) : Prop where
  seq : ep.seq.toNat = ep.draws
  le : ∀ n ∈ requestNumbers ep.log, n ≤ ep.draws
  nodup : (requestNumbers ep.log).Nodup

theorem Counts.next {ep ep' : Ep} (h : Counts ep) {l} (hl : ep'.log = l ++ ep.log) (hn : NewNumbers ep ep' (requestNumbers l))
    (hr : ep'.resets = 0) (hd : ep'.draws < 2 ^ 24) : Counts ep' := by
  rcases hn with ⟨h1, hs⟩ | ⟨h1, h2, h3, h4⟩
  · have e : requestNumbers ep'.log = requestNumbers ep.log := by rw [hl, requestNumbers_append, h1]; rfl
    cases hs with
    | same a b c => exact ⟨by rw [c, a]; exact h.seq, by rw [e, a]; exact h.le, by rw [e]; exact h.nodup⟩
    | draw a b c =>
      have hn := nextSeqNr_small ep.seq (by rw [h.seq]; omega)
      refine ⟨by rw [c, a, hn, h.seq], ?_, by rw [e]; exact h.nodup⟩
      intro n hx
      rw [e] at hx
      have := h.le n hx
      omega
    | reset a b => omega
  · have hn := nextSeqNr_small ep.seq (by rw [h.seq]; omega)
    have e : requestNumbers ep'.log = (ep.draws + 1) :: requestNumbers ep.log := by
      rw [hl, requestNumbers_append, h1, hn, h.seq]; rfl
    refine ⟨by rw [h4, h2, hn, h.seq], ?_, ?_⟩
    · intro n hx
      rw [e] at hx
      rcases List.mem_cons.1 hx with rfl | hx
      · omega
      · have := h.le n hx; omega
    · rw [e, List.nodup_cons]
      refine ⟨fun hx => ?_, h.nodup⟩
      have := h.le _ hx
      omega

theorem Reached.counts {ep : Ep} (h : Reached ep) (hf : ep.freshSeqs) : Counts ep := by
  refine h.invariant (I := fun x => x.1.resets = 0 → x.1.draws < 2 ^ 24 → Counts x.1) ?_ ?_ hf.1 hf.2
  · intro a b hi hm hr hd
    obtain ⟨l, hl, hn⟩ := hm.numbers
    have : a.1.resets = 0 ∧ a.1.draws < 2 ^ 24 := by
      rcases hn with ⟨_, hs⟩ | ⟨_, h2, h3, _⟩
      · cases hs with
        | same a b c => omega
        | draw a b c => omega
        | reset a b => omega
      · omega
    exact (hi this.1 this.2).next hl hn hr hd
  · intro _ _ _ _ _ _ _ _
    exact ⟨rfl, by simp [Ep.create, requestNumbers], by simp [Ep.create, requestNumbers]⟩


/-! ### What is received -/

theorem rdN_seq {mem : List UInt8} {i : Nat} {o} (h : rdN mem i 3 = .ok o) : loadBE o < 2 ^ 24 := by
  unfold rdN at h
  split at h
  · cases h
    have := loadBE_lt ((mem.drop i).take 3)
    rw [List.length_take_of_le (by simp; omega)] at this
    omega
  · cases h

theorem decodeHeader_kind {mem len d} (h : decodeHeader mem len = .ok d) :
    d.isResponse = isResponseType d.h.type ∧ d.h.seq < 2 ^ 24 ∧ d.causeAt = (membOfsOf d.h.type).1 := by
  unfold decodeHeader at h
  cases mem with
  | none => cases h
  | some mem =>
    dsimp only at h
    split at h
    · cases h
    split at h
    · cases h
    obtain ⟨flags, _, h⟩ := Res.bind_eq_ok h
    split at h
    · cases h
    obtain ⟨type, _, h⟩ := Res.bind_eq_ok h
    obtain ⟨lo, _, h⟩ := Res.bind_eq_ok h
    split at h
    · cases h
    split at h
    · obtain ⟨seq, hq, h⟩ := Res.bind_eq_ok h
      split at h
      · cases h
      · cases h; exact ⟨rfl, rdN_seq hq, rfl⟩
    · obtain ⟨seid, _, h⟩ := Res.bind_eq_ok h
      obtain ⟨seq, hq, h⟩ := Res.bind_eq_ok h
      obtain ⟨p, _, h⟩ := Res.bind_eq_ok h
      cases h; exact ⟨rfl, rdN_seq hq, rfl⟩

theorem rxLoop_kind : ∀ (fuel : Nat) (mem : List UInt8) (len : Nat) (l : List Rx), rxLoop fuel mem len = .ok l →
    ∀ x ∈ l, x.hdr.isResponse = isResponseType x.hdr.h.type ∧ x.hdr.h.seq < 2 ^ 24 ∧ x.hdr.causeAt = (membOfsOf x.hdr.h.type).1
  | 0, _, _, _, h, _, _ => by cases h
  | fuel + 1, mem, len, l, h, x, hx => by
    unfold rxLoop at h
    split at h
    · cases h; cases hx
    split at h
    · cases h; cases hx
    · rename_i d hd
      split at h
      · obtain ⟨l', h1, h⟩ := Res.bind_eq_ok h
        cases h
        rcases List.mem_cons.1 hx with rfl | hx
        · exact decodeHeader_kind hd
        · exact rxLoop_kind fuel _ _ _ h1 x hx
      · obtain ⟨l', h1, h⟩ := Res.bind_eq_ok h
        cases h
        rcases List.mem_cons.1 hx with rfl | hx
        · exact decodeHeader_kind hd
        · exact rxLoop_kind fuel _ _ _ h1 x hx
      all_goals cases h
    all_goals cases h

theorem mem_receivedMsgs {l : List Event} {k x} (h : Event.received k x ∈ l) : x ∈ receivedMsgs l := by
  unfold receivedMsgs rxEvents
  rw [List.mem_filterMap]
  exact ⟨_, List.mem_reverse.2 (List.mem_filter.2 ⟨h, rfl⟩), rfl⟩

/-- What was received from a datagram. -/
structure RxFrom (s : Sockaddr) (o : List UInt8) (x : PMsg) : Prop where
  remote : x.remote = s
  kind : x.isResponse = true ↔ x.h.type ∈ responseTypes
  seq : x.h.seq < 2 ^ 24
  cause : x.causeAt = (membOfsOf x.h.type).1
  means : Covered o → o.length < 2048 → ∃ xs, DatagramMeans s o xs ∧ x ∈ xs
  msg : ∀ h ies, GoodMsg (h, ies) → o = bundle [(h, ies)] → o.length < 2048 → x.h = h ∧ x.ies = ies

theorem rxDatagram_received {ep ep' : Ep} (h : Reached ep) {s o rs} (hr : ep.rxDatagram s o rs = .ok ep') :
    ∃ l, ep'.log = l ++ ep.log ∧ ∀ k x, Event.received k x ∈ l → RxFrom s o x := by
  by_cases hs : ep.sock = true
  case neg =>
    refine ⟨[], ?_, by simp⟩
    unfold Ep.rxDatagram at hr
    dsimp only at hr
    rw [if_pos (.inl hs)] at hr
    cases hr; rfl
  by_cases hd : o = []
  · refine ⟨[], ?_, by simp⟩
    unfold Ep.rxDatagram at hr
    dsimp only at hr
    rw [if_pos (.inr (by rw [hd]; rfl))] at hr
    cases hr; rfl
  obtain ⟨msgs, l, h1, h2, h3⟩ := C51_datagram h hs hr hd
  refine ⟨l, h2, ?_⟩
  intro k x hx
  have hx := mem_receivedMsgs hx
  have hx0 := hx
  rw [h3, List.mem_filterMap] at hx
  obtain ⟨y, hy, hx⟩ := hx
  obtain ⟨ies, h5, rfl⟩ := Option.map_eq_some_iff.1 hx
  rw [rxBundle_eq] at h1
  have hk := rxLoop_kind _ _ _ _ h1 y hy
  refine ⟨rfl, ?_, hk.2.1, hk.2.2, ?_, ?_⟩
  · show y.hdr.isResponse = true ↔ _
    rw [hk.1]
    exact C33_response_types _
  · intro hc hl
    obtain ⟨l', h6, h7⟩ := C79_datagram h hs hd hl hc hr
    rw [h2] at h6
    cases List.append_cancel_right h6
    exact ⟨_, h7, hx0⟩
  · rintro h' ies' hg rfl hl
    obtain ⟨l', h6, h7⟩ := C51_bundle h hs [(h', ies')] (by simpa using hg) (by simp) hl hr
    rw [h2] at h6
    cases List.append_cancel_right h6
    have := List.mem_map_of_mem (f := fun m : PMsg => (m.remote, m.h, m.ies)) hx0
    rw [h7] at this
    have := List.mem_singleton.1 this
    simp only [Prod.mk.injEq] at this
    exact this.2

/-! ### Small steps of the network -/

theorem queueDel_log {ep ep' : Ep} {id} (h : ep.queueDel id = .ok ep') : Api ep ep' := by
  obtain ⟨ep1, h1, h⟩ := Res.bind_eq_ok h
  cases h
  exact (releaseUses_only h1).api.trans (.step [.freed id] rfl (by simp [isRx]) rfl rfl rfl (Nat.le_refl _))

theorem reqTimer_api {ep ep' : Ep} {id io cb} (hf : ∀ ep ep', cb ep = .ok ep' → Api ep ep')
    (h : ep.reqTimer id io cb = .ok ep') : Api ep ep' := by
  unfold Ep.reqTimer at h
  split at h
  · cases h; exact .refl _
  rename_i e _
  split at h
  · cases h; exact .refl _
  split at h
  · cases h
  dsimp only at h
  obtain ⟨⟨ep1, keep⟩, h1, h⟩ := Res.bind_eq_ok h
  dsimp only at h
  have a1 : Api ep ep1 := by
    refine Api.trans (b := { ep with reqs := setEntry ep.reqs { e with timer := none } })
      ⟨rfl, rfl, rfl, Nat.le_refl _, [], rfl, by simp⟩ ?_
    unfold Ep.retrans at h1
    split at h1
    · cases h1; exact .refl _
    obtain ⟨⟨ep2, m, rc⟩, h2, h1⟩ := Res.bind_eq_ok h1
    have := sendMsg_api h2 (by simp)
    cases rc <;> cases h1 <;> exact this.trans ⟨rfl, rfl, rfl, Nat.le_refl _, [], rfl, by simp⟩
  cases hk : keep
  case true =>
    rw [if_pos hk] at h
    cases h; exact a1
  rw [if_neg (by simp [hk])] at h
  obtain ⟨ep2, h2, h⟩ := Res.bind_eq_ok h
  have a2 : Api ep1 ep2 := by
    split at h2
    · refine (note_api ep1 _ rfl).trans (using_api ?_ h2)
      intro x x' hx
      split at hx
      · exact assocResp_api ok_api hx
      · exact hf _ _ hx
    · cases h2; exact .refl _
  split at h
  · exact (a1.trans a2).trans (queueDel_log h)
  · cases h

theorem peerTimer_api {ep ep' : Ep} {fi io} (h : ep.peerTimer fi io = .ok ep') : Api ep ep' := by
  unfold Ep.peerTimer at h
  split at h
  · cases h; exact .refl _
  split at h
  · cases h; exact .refl _
  rename_i p _ _
  dsimp only at h
  refine Api.trans (b := { ep with peers := setPeer ep.peers { p with timer := none } })
      ⟨rfl, rfl, rfl, Nat.le_refl _, [], rfl, by simp⟩ ?_
  split at h
  · exact assocStart_api h
  · cases h; exact ⟨rfl, rfl, rfl, Nat.le_refl _, [], rfl, by simp⟩

/-- What is not the arrival of a datagram receives nothing. -/
theorem Op.local_log {op : Op} (hl : op.isLocal) {ep ep' : Ep} (h : op.step ep = .ok ep') :
    ∃ l, ep'.log = l ++ ep.log ∧ ∀ e ∈ l, isRx e = false := by
  cases op with
  | app a => exact (run_api a _ _ h).log
  | rx => exact hl.elim
  | advance ms => cases h; exact ⟨[], rfl, by simp⟩
  | reqTimer id io f => exact (reqTimer_api (run_api f) h).log
  | respTimer id =>
    replace h : ep.respTimer id = .ok ep' := h
    unfold Ep.respTimer at h
    split at h
    · cases h; exact ⟨[], rfl, by simp⟩
    split at h
    · cases h; exact ⟨[], rfl, by simp⟩
    split at h
    · cases h
    · exact (queueDel_log h).log
  | peerTimer fi io => exact (peerTimer_api h).log

theorem Net.set_same (w : Net) (a : Sockaddr) (ep : Ep) : w.set a ep a = ep := if_pos rfl
theorem Net.set_other (w : Net) {a b : Sockaddr} (ep : Ep) (h : b ≠ a) : w.set a ep b = w b := if_neg h

/-- Each endpoint of a network is an endpoint; and the log of each grows. -/
theorem NetReached.reached {w : Net} (h : NetReached w) (a : Sockaddr) : Reached (w a) := by
  induction h with
  | start w hw =>
    obtain ⟨_, _, _, _, _, _, h⟩ := hw a
    rw [h]; exact .create ..
  | step _ hs ih =>
    cases hs with
    | «local» b op hl ho =>
      by_cases hb : a = b
      · subst hb; rw [Net.set_same]; exact ih.op op ho
      · rw [Net.set_other _ _ hb]; exact ih
    | deliver s r rs hl ho =>
      by_cases hb : a = r
      · subst hb; rw [Net.set_same]; exact ih.op (.rx s _ rs) ho
      · rw [Net.set_other _ _ hb]; exact ih

theorem NetStep.log {w w' : Net} (h : NetReached w) (hs : NetStep w w') (a : Sockaddr) : ∃ l, (w' a).log = l ++ (w a).log := by
  cases hs with
  | «local» b op hl ho =>
    by_cases hb : a = b
    · subst hb; rw [Net.set_same]
      obtain ⟨l, h1, _⟩ := Op.local_log hl ho
      exact ⟨l, h1⟩
    · rw [Net.set_other _ _ hb]; exact ⟨[], rfl⟩
  | deliver s r rs hl ho =>
    by_cases hb : a = r
    · subst hb; rw [Net.set_same]
      obtain ⟨l, h1, _⟩ := rxDatagram_received (h.reached a) ho
      exact ⟨l, h1⟩
    · rw [Net.set_other _ _ hb]; exact ⟨[], rfl⟩

/-- What is received was sent. -/
theorem NetReached.received {w : Net} (h : NetReached w) {r k x} (hx : Event.received k x ∈ (w r).log) :
    ∃ why id o t, Event.send why id r o true t ∈ (w x.remote).log ∧ RxFrom x.remote o x := by
  induction h generalizing r k x with
  | start w hw =>
    obtain ⟨_, _, _, _, _, _, h⟩ := hw r
    rw [h] at hx
    cases List.mem_singleton.1 hx
  | @step w w' hn hs ih =>
    have old : Event.received k x ∈ (w r).log →
        ∃ why id o t, Event.send why id r o true t ∈ (w' x.remote).log ∧ RxFrom x.remote o x := by
      intro hx
      obtain ⟨why, id, o, t, h1, h2⟩ := ih hx
      obtain ⟨l, hl⟩ := hs.log hn x.remote
      exact ⟨why, id, o, t, by rw [hl]; exact List.mem_append_right _ h1, h2⟩
    have hs0 := hs
    cases hs with
    | «local» b op hl ho =>
      by_cases hb : r = b
      · subst hb
        obtain ⟨l, h1, h2⟩ := Op.local_log hl ho
        rw [Net.set_same, h1] at hx
        rcases List.mem_append.1 hx with hx | hx
        · cases h2 _ hx
        · exact old hx
      · rw [Net.set_other _ _ hb] at hx; exact old hx
    | @deliver s b why id o t rs ep' hl ho =>
      by_cases hb : r = b
      · subst hb
        obtain ⟨l, h1, h2⟩ := rxDatagram_received (hn.reached r) ho
        rw [Net.set_same, h1] at hx
        rcases List.mem_append.1 hx with hx | hx
        · have h3 := h2 _ _ hx
          have hr := h3.remote
          subst hr
          obtain ⟨l', hl'⟩ := hs0.log hn x.remote
          exact ⟨why, id, o, t, by rw [hl']; exact List.mem_append_right _ hl, h3⟩
        · exact old hx
      · rw [Net.set_other _ _ hb] at hx; exact old hx

/-! ### Where messages come from -/

theorem transportable_good {h ies} (ht : Transportable h ies) : GoodMsg (h, ies) := by
  obtain ⟨hg, f, hf, hs, hl⟩ := ht
  refine ⟨hg, ⟨f, hf, hs⟩, ?_⟩
  have : payload (h, ies) = structOctets f ies := by simp [payload, hf]
  rw [this]
  show (bodyOctets h _).length ≤ _
  have : (msgOctets false h (structOctets f ies)).length = 4 + (bodyOctets h (structOctets f ies)).length := by
    simp [msgOctets]; omega
  omega

theorem transportable_encode {m : PMsg} (he : m.encoded = none) (ht : Transportable m.h m.ies) {o} (ho : m.encode = .ok o) :
    o = bundle [(m.h, m.ies)] ∧ o.length < 2048 := by
  have hgm := transportable_good ht
  obtain ⟨hg, f, hf, hs, hl⟩ := ht
  obtain ⟨buf, h1, h2, _⟩ := C19_every_message m.h f m.ies allocSize hf hg hs (by simp only [allocSize]; omega)
  unfold PMsg.encode at ho
  rw [he] at ho
  simp only [h1] at ho
  cases ho
  have : payload (m.h, m.ies) = structOctets f m.ies := by simp [payload, hf]
  rw [h2]
  refine ⟨?_, hl⟩
  simp [bundle, bundleOctets, this]

theorem heartbeat_bundle (type : Nat) (ht : type = 1 ∨ type = 2) (seq rts : Nat) (hs : seq < 2 ^ 24) (hr : rts < 2 ^ 32) :
    GoodMsg ({ version := 1, type, seq }, [[.leaf (.u32 rts)]]) ∧
    bundle [({ version := 1, type, seq }, [[.leaf (.u32 rts)]])] =
      [0x20, octet type, 0, 12] ++ be 3 seq ++ [0] ++ [0, 96, 0, 4] ++ be 4 rts := by
  have hp : payload ({ version := 1, type, seq }, [[.leaf (.u32 rts)]]) = ie16 (96, be 4 rts) ++ [] := by
    rcases ht with rfl | rfl <;> rfl
  have hbody : (bodyOctets { version := 1, type, seq } (ie16 (96, be 4 rts) ++ [])).length = 12 := by
    simp [bodyOctets, ie16, part]
  refine ⟨⟨⟨by simp, by rcases ht with rfl | rfl <;> simp, hs, by simp, by simp, by simp⟩, ?_, ?_⟩, ?_⟩
  · rcases ht with rfl | rfl <;>
      exact ⟨_, rfl, ⟨Nat.le_refl _, Nat.le_refl _⟩, fun v hv => by rw [List.mem_singleton.mp hv]; exact ⟨rfl, hr⟩, trivial⟩
  · rw [hp, hbody]; decide
  · unfold bundle
    rw [List.map_cons, List.map_nil, hp]
    unfold bundleOctets msgOctets
    rw [hbody]
    rcases ht with rfl | rfl <;> simp [bodyOctets, ie16, octet, part, bit, be]

/-- A message that is received in a network of proper applications has an origin at its sender. -/
theorem NetReached.origin {w : Net} (h : NetReached w) (hp : Proper w) {r k x} (hx : Event.received k x ∈ (w r).log) :
    Origin (w x.remote) r x.h x.ies := by
  obtain ⟨why, id, o, t, hs, hf⟩ := h.received hx
  have hrch := h.reached x.remote
  have about : About id (.send why id r o true t) → Origin (w x.remote) r x.h x.ies := by
    intro ha
    obtain ⟨s, h1, h2, h3⟩ := hrch.inv.life id
    obtain ⟨n1, t1, m, h4, h5, h6⟩ := Life.sends h1 hs ha
    obtain ⟨p1, p2, _⟩ := hp.sendable _ _ _ _ _ h4
    obtain ⟨e1, e2⟩ := transportable_encode p1 p2 h6
    obtain ⟨e3, e4⟩ := hf.msg _ _ (transportable_good p2) e1 e2
    exact .passed id n1 t1 m h4 h5 e3.symm e4.symm
  cases why with
  | tx => exact about rfl
  | retrans => exact about rfl
  | cachedReply j => exact about rfl
  | direct => exact absurd hs (hp.noDirect _ _ _ _ _ _)
  | heartbeatReq =>
    obtain ⟨s, h1, h2, h3⟩ := hrch.beats _ hs
    obtain ⟨g1, g2⟩ := heartbeat_bundle 1 (.inl rfl) s (w x.remote).rts h2 hrch.rts_lt
    have hlen : o.length < 2048 := by rw [h3]; simp [heartbeatReqOctets]
    obtain ⟨e3, e4⟩ := hf.msg _ _ g1 (by rw [g2, h3]; rfl) hlen
    refine .heartbeat id o t hs ?_
    rw [h3, numAt_heartbeatReq h2]
    exact ⟨e3, e4⟩
  | heartbeatReply j =>
    obtain ⟨y, h1, h2, h3, h4⟩ := hrch.beats _ hs
    obtain ⟨_, _, _, _, _, hf'⟩ := h.received h1
    obtain ⟨g1, g2⟩ := heartbeat_bundle 2 (.inr rfl) y.h.seq (w x.remote).rts hf'.seq hrch.rts_lt
    have hlen : o.length < 2048 := by rw [h4]; simp [heartbeatRespOctets]
    obtain ⟨e3, e4⟩ := hf.msg _ _ g1 (by rw [g2, h4]; rfl) hlen
    exact .reply j y h1 h3 h2 ⟨e3, e4⟩

/-! ### Requests are told apart by their numbers -/

theorem filterMap_nodup_inj {α β : Type} {f : α → Option β} : ∀ {l : List α}, (l.filterMap f).Nodup →
    ∀ {a b : α} {n : β}, a ∈ l → b ∈ l → f a = some n → f b = some n → a = b
  | [], _, _, _, _, ha, _, _, _ => by cases ha
  | x :: l, hn, a, b, n, ha, hb, fa, fb => by
    have key : ∀ {c}, c ∈ l → f c = some n → f x ≠ some n := by
      intro c hc fc fx
      rw [List.filterMap_cons, fx, List.nodup_cons] at hn
      exact hn.1 (List.mem_filterMap.2 ⟨c, hc, fc⟩)
    have hn' : (l.filterMap f).Nodup := by
      rw [List.filterMap_cons] at hn
      split at hn
      · exact hn
      · exact (List.nodup_cons.1 hn).2
    rcases List.mem_cons.1 ha with ha' | ha' <;> rcases List.mem_cons.1 hb with hb' | hb'
    · rw [ha', hb']
    · subst ha'; exact absurd fa (key hb' fb)
    · subst hb'; exact absurd fb (key ha' fa)
    · exact filterMap_nodup_inj hn' ha' hb' fa fb

/-- The event by which a request begins its way. -/
def Event.requestNumber : Event → Option Nat
  | .passed _ _ _ m => if m.isResponse then none else some m.h.seq
  | .send .heartbeatReq _ _ o _ _ => some (numAt o 4 3)
  | _ => none

theorem requestNumbers_eq (log : List Event) : requestNumbers log = log.filterMap Event.requestNumber := by
  unfold requestNumbers
  congr 1

theorem same_request {ep : Ep} (h : Reached ep) (hf : ep.freshSeqs) {e e' n} (he : e ∈ ep.log) (he' : e' ∈ ep.log)
    (hn : e.requestNumber = some n) (hn' : e'.requestNumber = some n) : e = e' := by
  have := (h.counts hf).nodup
  rw [requestNumbers_eq] at this
  exact filterMap_nodup_inj this he he' hn hn'

/-! ### One message in a datagram -/

theorem rxDatagram_single {ep ep' : Ep} (h : Reached ep) {remote rs} (hs : ep.sock = true) {m : Hdr × Struct IeVal}
    (hg : GoodMsg m) (hlen : (bundle [m]).length < 2048) (hr : ep.rxDatagram remote (bundle [m]) rs = .ok ep') :
    ∃ x, x.remote = remote ∧ x.h = m.1 ∧ x.ies = m.2 ∧ (x.isResponse = true ↔ x.h.type ∈ responseTypes) ∧
      ep.handleRx x (rs.headD {}) = .ok ep' := by
  obtain ⟨msgs, h4, h5⟩ := C24_bundle_reception [m] (by simpa using hg) (List.replicate (2048 - (bundle [m]).length) 0)
    (List.mem_replicate.mpr ⟨by omega, rfl⟩)
  have hne : bundle [m] ≠ [] := by
    unfold bundle
    rw [List.map_cons, bundleOctets_cons]
    simp [Spec.msgOctets]
  unfold Ep.rxDatagram at hr
  dsimp only at hr
  have ha : allocSize = 2048 := rfl
  rw [List.take_of_length_le (by rw [ha]; omega), if_neg, if_neg] at hr
  rotate_left
  · simp [(C53_receives h).1 hs]
  · simp [hs, hne]
  rw [ha, h4] at hr
  simp only [Res.bind] at hr
  rw [rxBundle_eq] at h4
  have hk := rxLoop_kind _ _ _ _ h4
  cases msgs with
  | nil => simp at h5
  | cons x msgs =>
    cases msgs with
    | cons y msgs => simp at h5
    | nil =>
      simp only [List.map_cons, List.map_nil, List.cons.injEq, and_true, Prod.mk.injEq] at h5
      obtain ⟨h6, h7⟩ := h5
      obtain ⟨d, ies⟩ := x
      dsimp only at h6 h7
      subst h7
      obtain ⟨ep1, h8, hr⟩ := Res.bind_eq_ok hr
      cases hr
      refine ⟨_, rfl, h6, rfl, ?_, h8⟩
      show d.isResponse = true ↔ d.h.type ∈ responseTypes
      rw [(hk _ (.head _)).1]
      exact C33_response_types _

/-- The arrival of a message that the application at `a` has passed. -/
theorem NetReached.arrives {w : Net} (h : NetReached w) (hp : Proper w) {a b id n1 t1 m o rs ep'}
    (hm : Event.passed id n1 t1 m ∈ (w a).log) (ho : m.encode = .ok o) (hs : (w b).sock = true)
    (hr : (w b).rxDatagram a o rs = .ok ep') :
    ∃ x, x.remote = a ∧ x.h = m.h ∧ x.ies = m.ies ∧ x.isResponse = m.isResponse ∧
      (w b).handleRx x (rs.headD {}) = .ok ep' := by
  obtain ⟨p1, p2, p3⟩ := hp.sendable _ _ _ _ _ hm
  obtain ⟨e1, e2⟩ := transportable_encode p1 p2 ho
  subst e1
  obtain ⟨x, x1, x2, x3, x4, x5⟩ := rxDatagram_single (h.reached b) hs (transportable_good p2) e2 hr
  refine ⟨x, x1, x2, x3, ?_, x5⟩
  rw [x2, ← p3] at x4
  cases hx : x.isResponse <;> cases hy : m.isResponse <;> simp_all

theorem sole_request {ep : Ep} (h : Reached ep) (hf : ep.freshSeqs) {e e'} (he : e ∈ ep.reqs) (he' : e' ∈ ep.reqs)
    (hq : e.m.h.seq = e'.m.h.seq) : e = e' := by
  obtain ⟨n1, t1, m, o, l1, s1, r1, _⟩ := h.inv.request (look_of_mem h.inv.nodupReqs he) rfl
  obtain ⟨n1', t1', m', o', l2, s2, r2, _⟩ := h.inv.request (look_of_mem h.inv.nodupReqs he') rfl
  have p1 := (l1.tally.info n1 t1 m).mpr rfl
  have p2 := (l2.tally.info n1' t1' m').mpr rfl
  have := same_request h hf p1 p2 (n := m.h.seq) (by simp [Event.requestNumber, r1])
    (by simp [Event.requestNumber, r2, ← s1.seq, ← s2.seq, hq])
  have hid : e.id = e'.id := by injection this
  have g1 := look_of_mem h.inv.nodupReqs he
  rw [hid, look_of_mem h.inv.nodupReqs he'] at g1
  exact (Option.some.inj g1).symm

end Verif
