/-
What a received message changes in an endpoint: C119.
-/
import Verif.SpecTouch
import Verif.PropsMeaning
import Verif.PropsMoves

namespace Verif.Props
open Verif Spec

/-- The same state, apart from the log and the number of messages seen so far. -/
def AsBefore (a b : Ep) : Prop := ∃ l n, b = { a with log := l, nextId := n }

theorem setCtx_idle {ep ep' : Ep} {k req r} (hr : CallsNothing r) (h : ep.setCtx k req r = .ok ep') :
    ∃ l, ep' = { ep with use := fun u => ep.use u + (ep.rxUses r).count u, log := l } := by
  unfold Ep.setCtx at h
  split at h
  · rw [hr.1] at h; cases h; exact ⟨_, rfl⟩
  · rename_i hc
    cases h
    unfold Ep.rxUses
    rw [if_neg hc]
    exact ⟨_, rfl⟩

theorem dispatch_idle {ep ep' : Ep} {k req r} (hr : CallsNothing r) (h : ep.dispatch k req r = .ok ep') :
    ∃ l, ep' = { ep with log := l } := by
  unfold Ep.dispatch at h
  rw [hr.2.2] at h; cases h; exact ⟨_, rfl⟩

theorem heartbeatReply_idle {ep ep' : Ep} {k m io} (h : ep.heartbeatReply k m io = .ok ep') : AsBefore ep ep' := by
  unfold Ep.heartbeatReply at h
  split at h
  · obtain ⟨⟨ep3, m3, rc⟩, h3, h⟩ := Res.bind_eq_ok h
    cases h
    rcases sendMsg_ok h3 with ⟨o, _, _, _, h⟩ | ⟨l, e, enc, hl, _, h⟩
    · cases h; exact ⟨_, _, rfl⟩
    · cases h; exact ⟨_, _, rfl⟩
  · cases h; exact ⟨_, _, rfl⟩

set_option linter.unusedSimpArgs false in
/-- The state after on_pfcp_assoc_resp(), if assoc_cb() does nothing. -/
theorem assocResp_idle {ep ep' : Ep} {ctx m cb} (hcb : cb = Res.ok) (h : ep.assocResp ctx (some m) cb = .ok ep') :
    ep' = { ep with peers := peersAfter ep ctx m.accepted, log := ep'.log } := by
  subst hcb
  unfold Ep.assocResp at h
  split at h
  · cases h
  rename_i fi hfi
  split at h
  · cases h
  rename_i p hp
  have hpf : p.fi = fi := by simpa using List.find?_some hp
  have hfind : ep.peers.find? (fun p => ctx.peerFi = some p.fi) = some p := by
    rw [← hp, hfi]
    unfold Ep.peer?
    congr 1
    funext x
    simp [eq_comm]
  unfold peersAfter
  rw [hfind]
  dsimp only at h ⊢
  cases hs : p.state <;> cases ha : m.accepted <;> rw [ha] at h <;> simp only [hs, ha, peerAfter] at h ⊢ <;>
    simp (config := { decide := true }) only [if_true, if_false, not_true, not_false_eq_true, ne_eq, Bool.false_eq_true, reduceCtorEq] at h
  all_goals first
    | (cases h; rfl; done)
    | (rw [peerChg_refused hp (by rw [hs]; rfl)] at h; cases h; rfl; done)
    | (rw [peerChg_some hp (by rw [hs]; rfl)] at h
       try split at h
       all_goals
         cases h
         simp only [Ep.note, setPeer, Peer.enter, hpf, reduceCtorEq, false_and, if_false, true_and, ne_eq, ite_not])

theorem setEntry_self {q : List QEntry} (hn : (q.map (·.id)).Nodup) {e} (he : e ∈ q) : setEntry q e = q := by
  unfold setEntry
  refine (List.map_congr_left fun x hx => ?_).trans (List.map_id _)
  split
  · rename_i hid
    have h1 := look_of_mem hn hx
    have h2 := look_of_mem hn he
    rw [hid, h2] at h1
    exact Option.some.inj h1
  · rfl

theorem filter_eraseP : ∀ {q : List QEntry}, (q.map (·.id)).Nodup → ∀ {f : QEntry → Bool} {e}, q.find? f = some e →
    q.filter (fun x => x.id ≠ e.id) = q.eraseP f
  | [], _, f, e, h => by cases h
  | x :: q, hn, f, e, h => by
    rw [List.map_cons, List.nodup_cons] at hn
    rw [List.find?_cons] at h
    rw [List.eraseP_cons]
    cases hf : f x with
    | true =>
      rw [hf] at h
      cases h
      rw [cond_true, List.filter_cons, if_neg (by simp)]
      refine List.filter_eq_self.2 fun y hy => ?_
      have : y.id ≠ x.id := fun h => hn.1 (by rw [← h]; exact List.mem_map_of_mem hy)
      simpa using this
    | false =>
      rw [hf] at h
      dsimp only at h
      have hm := List.mem_of_find?_eq_some h
      have : x.id ≠ e.id := fun h => hn.1 (by rw [h]; exact List.mem_map_of_mem hm)
      rw [cond_false, List.filter_cons, if_pos (by simpa using this), filter_eraseP hn.2 h]

theorem filter_one : ∀ {q : List QEntry}, (q.map (·.id)).Nodup → ∀ {e}, e ∈ q → (q.filter fun x => x.id = e.id) = [e]
  | [], _, e, h => by cases h
  | x :: q, hn, e, h => by
    rw [List.map_cons, List.nodup_cons] at hn
    rcases List.mem_cons.1 h with rfl | h
    · rw [List.filter_cons, if_pos (by simp)]
      congr 1
      refine List.filter_eq_nil_iff.2 fun y hy => ?_
      have : y.id ≠ e.id := fun h => hn.1 (by rw [← h]; exact List.mem_map_of_mem hy)
      simpa using this
    · have : x.id ≠ e.id := fun h' => hn.1 (by rw [h']; exact List.mem_map_of_mem h)
      rw [List.filter_cons, if_neg (by simpa using this), filter_one hn.2 h]

/-- A message is received, and the callbacks do nothing. -/
theorem handleRx_idle {ep ep' : Ep} (h : Reached ep) {m r} (hr : CallsNothing r) (hx : ep.handleRx m r = .ok ep') :
    AsBefore (afterMessage ep m) ep' := by
  have hi : Inv (ep, {}) := h.inv
  unfold Ep.handleRx at hx
  obtain ⟨ep1, h1, hx1⟩ := Res.bind_eq_ok hx
  obtain ⟨ep2, h2, hx2⟩ := Res.bind_eq_ok hx1
  clear hx hx1
  obtain ⟨l1, n1, rfl⟩ : AsBefore ep ep1 := by
    obtain ⟨l, n, rfl⟩ := heartbeatReply_idle h1
    exact ⟨_, _, rfl⟩
  obtain ⟨rfl, hle⟩ := releaseUses_ok hx2
  have same : ∀ {l}, ep2 = { ep with use := fun u => ep.use u + (ep.rxUses r).count u, log := l, nextId := n1 } →
      AsBefore ep { ep2 with use := fun u => ep2.use u - (ep2.rxUses r).count u } := by
    rintro l rfl
    refine ⟨l, n1, ?_⟩
    have : (fun u => ep.use u + (ep.rxUses r).count u - (ep.rxUses r).count u) = ep.use := by funext u; omega
    show ({ ep with log := l, nextId := n1, use := fun u => ep.use u + (ep.rxUses r).count u - (ep.rxUses r).count u } : Ep) = _
    rw [this]
  unfold Ep.handleMsg at h2
  unfold afterMessage
  have hq1 : ∀ e ∈ ep.reqs, e.m.isResponse = false := fun e he => by
    obtain ⟨_, _, _, _, _, hs, h3, _⟩ := hi.request (look_of_mem hi.nodupReqs he) rfl
    rw [hs.isResponse, h3]
  cases hm : m.isResponse with
  | false =>
    simp only [hm, Bool.false_eq_true, if_false] at h2 ⊢
    split at h2
    · rename_i prev hf
      obtain ⟨hp, -⟩ := queueFind_some hf
      obtain ⟨ep3, h3, h2⟩ := Res.bind_eq_ok h2
      obtain ⟨ep4, h4, h3⟩ := Res.bind_eq_ok h3
      obtain ⟨l, rfl⟩ := setCtx_idle hr h4
      cases h3
      have hl := look_of_mem hi.nodupResps hp
      have hl' : ep.resps.find? (fun e => e.id = prev.id) = some prev := hl
      dsimp only at h2
      rw [hl'] at h2
      dsimp only at h2
      obtain ⟨⟨ep5, m5, rc⟩, h5, h2⟩ := Res.bind_eq_ok h2
      cases h2
      obtain ⟨_, _, _, o, _, hs, -⟩ := hi.response hl
      have hsock : ep.sock = true := hi.sock (.inr (List.ne_nil_of_mem hp))
      unfold Ep.sendMsg at h5
      rw [hs.encode] at h5
      dsimp only at h5
      rw [if_pos hsock] at h5
      cases h5
      have he : { prev with m := { prev.m with encoded := some o } } = prev := by
        rw [← hs.encoded]
      have key : ∀ L : List Event, AsBefore ep { ep with
          resps := setEntry ep.resps prev, log := L, nextId := n1
          use := fun u => ep.use u + (ep.rxUses r).count u - (ep.rxUses r).count u } := by
        intro L
        rw [setEntry_self hi.nodupResps hp]
        have : (fun u => ep.use u + (ep.rxUses r).count u - (ep.rxUses r).count u) = ep.use := by funext u; omega
        rw [this]
        exact ⟨L, n1, rfl⟩
      rw [he]
      exact key _
    · obtain ⟨ep3, h3, h2⟩ := Res.bind_eq_ok h2
      obtain ⟨l, rfl⟩ := setCtx_idle hr h3
      obtain ⟨l, rfl⟩ := dispatch_idle hr h2
      exact same rfl
  | true =>
    simp only [hm, if_true] at h2 ⊢
    have hfe : ep.reqs.find? (fun e => e.m.h.seq == m.h.seq) = queueFind ep.reqs m := by
      unfold queueFind
      generalize ep.reqs = q at hq1
      induction q with
      | nil => rfl
      | cons x q ih =>
        rw [List.find?_cons, List.find?_cons, hq1 x (.head _), ih fun e he => hq1 e (.tail _ he), hm]
        rfl
    rw [hfe]
    cases hf : queueFind ep.reqs m with
    | none =>
      simp only [hf] at h2
      obtain ⟨ep3, h3, h2⟩ := Res.bind_eq_ok h2
      obtain ⟨l, rfl⟩ := setCtx_idle hr h3
      obtain ⟨l, rfl⟩ := dispatch_idle hr h2
      exact same rfl
    | some prev =>
      simp only [hf] at h2
      obtain ⟨hp, -⟩ := queueFind_some hf
      have hl := look_of_mem hi.nodupReqs hp
      obtain ⟨_, _, _, _, _, _, _, hnone, -⟩ := hi.request hl rfl
      obtain ⟨ep3, h3, h2⟩ := Res.bind_eq_ok h2
      obtain ⟨ep4, h4, h3⟩ := Res.bind_eq_ok h3
      cases h3
      obtain ⟨ep5, h5, h4⟩ := Res.bind_eq_ok h4
      obtain ⟨l5, rfl⟩ := setCtx_idle hr h5
      obtain ⟨l6, rfl⟩ : ∃ l6, ep4 = { ep with
          use := fun u => ep.use u + (ep.rxUses r).count u, nextId := n1, busy := prev.id :: ep.busy, log := l6
          peers := if prev.m.ctx.respCb = some .assoc then peersAfter ep prev.m.ctx m.accepted else ep.peers } := by
        split at h4
        · obtain ⟨⟨ep8, rc⟩, h8, h4⟩ := Res.bind_eq_ok h4
          have hep8 : ∃ l6, ep8 = { ep with
              use := fun u => ep.use u + (ep.rxUses r).count u, nextId := n1, busy := prev.id :: ep.busy, log := l6
              peers := if prev.m.ctx.respCb = some .assoc then peersAfter ep prev.m.ctx m.accepted else ep.peers } := by
            unfold Ep.respCall at h8
            split at h8
            · rename_i hassoc
              have hl' : ep.reqs.find? (fun e => e.id = prev.id) = some prev := hl
              rw [if_pos hassoc]
              dsimp only [Ep.note] at h8
              rw [hl'] at h8
              dsimp only at h8
              obtain ⟨ep9, h9, h8⟩ := Res.bind_eq_ok h8
              cases h8
              rw [assocResp_idle (by rw [hr.2.1]; rfl) h9]
              exact ⟨_, rfl⟩
            · rename_i hassoc
              rw [if_neg hassoc]
              obtain ⟨ep9, h9, h8⟩ := Res.bind_eq_ok h8
              cases h8
              rw [hr.2.1] at h9
              cases h9
              exact ⟨_, rfl⟩
          obtain ⟨l6, rfl⟩ := hep8
          dsimp only at h4
          split at h4
          · cases h4; exact ⟨_, rfl⟩
          · obtain ⟨l, rfl⟩ := dispatch_idle hr h4
            exact ⟨_, rfl⟩
        · rename_i hcb
          have : ¬ prev.m.ctx.respCb = some Cb.assoc := fun h => hcb (by unfold PMsg.hasCb; rw [h]; rfl)
          rw [if_neg this]
          obtain ⟨l, rfl⟩ := dispatch_idle hr h4
          exact ⟨_, rfl⟩
      dsimp only at h2
      split at h2
      rotate_left
      · cases h2
      obtain ⟨ep7, h7, h2⟩ := Res.bind_eq_ok h2
      obtain ⟨rfl, hle'⟩ := releaseUses_ok h7
      cases h2
      have hfl : (((ep.reqs ++ ep.resps).filter fun e => e.id = prev.id).map fun e => e.m.ctx.uses).flatten = prev.m.ctx.uses := by
        rw [List.filter_append, filter_one hi.nodupReqs hp]
        have : ep.resps.filter (fun e => e.id = prev.id) = [] := by
          refine List.filter_eq_nil_iff.2 fun y hy => ?_
          have := List.find?_eq_none.1 (show ep.resps.find? (fun e => e.id = prev.id) = none from hnone) y hy
          simpa using this
        rw [this]
        simp
      have hfr : ep.resps.filter (fun e => e.id ≠ prev.id) = ep.resps := by
        refine List.filter_eq_self.2 fun y hy => ?_
        have := List.find?_eq_none.1 (show ep.resps.find? (fun e => e.id = prev.id) = none from hnone) y hy
        simpa using this
      have huse : ∀ u, (ep.rxUses r).count u ≤ ep.use u + (ep.rxUses r).count u - prev.m.ctx.uses.count u := by
        intro u
        have := hle u
        dsimp only at this
        rw [hfl] at this
        exact this
      have heq : (fun u => ep.use u + (ep.rxUses r).count u - prev.m.ctx.uses.count u - (ep.rxUses r).count u) =
          fun u => ep.use u - prev.m.ctx.uses.count u := by
        funext u
        have := huse u
        omega
      rw [← hfe] at hf
      have hfq := filter_eraseP hi.nodupReqs hf
      refine ⟨.freed prev.id :: l6, n1, ?_⟩
      dsimp only
      rw [hfl, hfr, hfq, ← heq]
      rfl

theorem afterMessage_log (ep : Ep) (m : PMsg) (l n) :
    afterMessage { ep with log := l, nextId := n } m = { afterMessage ep m with log := l, nextId := n } := by
  unfold afterMessage
  split
  · dsimp only
    split <;> rfl
  · rfl

theorem foldl_afterMessage_log (ms : List PMsg) : ∀ (ep : Ep) (l n),
    ms.foldl afterMessage { ep with log := l, nextId := n } = { ms.foldl afterMessage ep with log := l, nextId := n } := by
  induction ms with
  | nil => exact fun _ _ _ => rfl
  | cons m ms ih =>
    intro ep l n
    rw [List.foldl_cons, afterMessage_log, ih]
    rfl

theorem handleAll_idle {remote} : ∀ {msgs : List Rx} {rs : List React} {ep ep' : Ep}, Reached ep → (∀ r ∈ rs, CallsNothing r) →
    ep.handleAll remote msgs rs = .ok ep' →
    AsBefore ((msgs.filterMap fun x => x.ies.map (Rx.msg remote x.hdr)).foldl afterMessage ep) ep'
  | [], _, ep, ep', _, _, h => by cases h; exact ⟨_, _, rfl⟩
  | ⟨_, none⟩ :: l, rs, ep, ep', h0, hr, h => handleAll_idle (msgs := l) h0 hr h
  | ⟨d, some ies⟩ :: l, rs, ep, ep', h0, hr, h => by
    obtain ⟨ep1, h1, h⟩ := Res.bind_eq_ok h
    have hhead : CallsNothing (rs.headD {}) := by
      cases rs with
      | nil => exact ⟨rfl, rfl, rfl⟩
      | cons r rs => exact hr r (.head _)
    obtain ⟨l1, n1, rfl⟩ := handleRx_idle h0 hhead h1
    obtain ⟨l2, n2, rfl⟩ := handleAll_idle (h0.rx _ _ h1) (fun r hr' => hr r (List.mem_of_mem_tail hr')) h
    refine ⟨l2, n2, ?_⟩
    rw [foldl_afterMessage_log]
    rfl

/-- C119: what a datagram – of any octets, from anywhere – changes in an endpoint whose callbacks call no function of the library is exactly this: for each of its
messages, in order, if it is a response, the pending request with its sequence number is done, and if that was an Association Setup Request of a CP peer that waits
for the response, this peer is associated or will retry.  Nothing else is remembered of it: no response is kept or forgotten, no sequence number is taken, no timer is started or
stopped. -/
theorem C119_exactly {ep ep' : Ep} (h : Reached ep) {remote d rs} (hq : ∀ r ∈ rs, CallsNothing r)
    (hr : ep.rxDatagram remote d rs = .ok ep') :
    ∃ l, ep'.log = l ++ ep.log ∧ ep' = { (receivedMsgs l).foldl afterMessage ep with log := ep'.log, nextId := ep'.nextId } := by
  by_cases hs : ep.sock = true ∧ d ≠ []
  · obtain ⟨msgs, l, h1, h2, h3⟩ := C51_datagram h hs.1 hr hs.2
    refine ⟨l, h2, ?_⟩
    unfold Ep.rxDatagram at hr
    dsimp only at hr
    rw [if_neg, if_neg] at hr
    rotate_left
    · simp [(C53_receives h).1 hs.1]
    · simp [hs.1, hs.2, allocSize]
    obtain ⟨msgs', h1', hr⟩ := Res.bind_eq_ok hr
    have hlen : (d.take allocSize).length = min d.length 2048 := by simp [allocSize, Nat.min_comm]
    have hrep : allocSize - min d.length 2048 = 2048 - d.length := by simp only [allocSize]; omega
    rw [hlen, hrep] at h1'
    have : msgs' = msgs := by
      have := h1'.symm.trans h1
      cases this; rfl
    subst this
    obtain ⟨l', n', he⟩ := handleAll_idle h hq hr
    rw [h3, he]
  · refine ⟨[], ?_, ?_⟩
    all_goals
      unfold Ep.rxDatagram at hr
      dsimp only at hr
      rw [if_pos] at hr
      · cases hr; rfl
      · by_cases h1 : ep.sock = true
        · right
          have : d = [] := Decidable.byContradiction fun h2 => hs ⟨h1, h2⟩
          rw [this]; rfl
        · exact .inl h1

theorem afterMessage_rest (ep : Ep) (m : PMsg) :
    (afterMessage ep m).resps = ep.resps ∧ (afterMessage ep m).seq = ep.seq ∧ (afterMessage ep m).sock = ep.sock ∧
      ∀ e ∈ ep.reqs, (m.isResponse = true → m.h.seq ≠ e.m.h.seq) → e ∈ (afterMessage ep m).reqs := by
  unfold afterMessage
  split
  · rename_i hm
    split
    · refine ⟨rfl, rfl, rfl, fun e he hne => ?_⟩
      refine (List.mem_eraseP_of_neg ?_).2 he
      have := hne hm
      simpa using fun h => this h.symm
    · exact ⟨rfl, rfl, rfl, fun _ h _ => h⟩
  · exact ⟨rfl, rfl, rfl, fun _ h _ => h⟩

/-- C119: in particular, no response that is kept is forgotten, and no request is given up but by a response with its sequence number. -/
theorem C119_others {ep ep' : Ep} (h : Reached ep) {remote d rs} (hq : ∀ r ∈ rs, CallsNothing r)
    (hr : ep.rxDatagram remote d rs = .ok ep') :
    ep'.resps = ep.resps ∧ ep'.seq = ep.seq ∧ ∃ l, ep'.log = l ++ ep.log ∧
      ∀ e ∈ ep.reqs, (∀ m ∈ receivedMsgs l, m.isResponse = true → m.h.seq ≠ e.m.h.seq) → e ∈ ep'.reqs := by
  obtain ⟨l, hl, he⟩ := C119_exactly h hq hr
  have key : ∀ (ms : List PMsg) (ep : Ep), (ms.foldl afterMessage ep).resps = ep.resps ∧ (ms.foldl afterMessage ep).seq = ep.seq ∧
      ∀ e ∈ ep.reqs, (∀ m ∈ ms, m.isResponse = true → m.h.seq ≠ e.m.h.seq) → e ∈ (ms.foldl afterMessage ep).reqs := by
    intro ms
    induction ms with
    | nil => exact fun ep => ⟨rfl, rfl, fun _ h _ => h⟩
    | cons m ms ih =>
      intro ep
      obtain ⟨a1, a2, -, a3⟩ := afterMessage_rest ep m
      obtain ⟨b1, b2, b3⟩ := ih (afterMessage ep m)
      refine ⟨b1.trans a1, b2.trans a2, fun e he hne => ?_⟩
      exact b3 e (a3 e he (hne m (.head _))) fun x hx => hne x (.tail _ hx)
  obtain ⟨k1, k2, k3⟩ := key (receivedMsgs l) ep
  rw [he]
  exact ⟨k1, k2, l, hl, k3⟩

/-- C119: a datagram that answers no pending request leaves no trace: not in the queues, timers, sequence numbers, use counts, nor in any CP peer. -/
theorem C119_unsolicited {ep ep' : Ep} (h : Reached ep) {remote d rs} (hq : ∀ r ∈ rs, CallsNothing r)
    (hr : ep.rxDatagram remote d rs = .ok ep') :
    ∃ l, ep'.log = l ++ ep.log ∧
      ((∀ m ∈ receivedMsgs l, m.isResponse = true → ∀ e ∈ ep.reqs, m.h.seq ≠ e.m.h.seq) →
        ep' = { ep with log := ep'.log, nextId := ep'.nextId }) := by
  obtain ⟨l, hl, he⟩ := C119_exactly h hq hr
  refine ⟨l, hl, fun hn => ?_⟩
  have key : ∀ (ms : List PMsg), (∀ m ∈ ms, m.isResponse = true → ∀ e ∈ ep.reqs, m.h.seq ≠ e.m.h.seq) → ms.foldl afterMessage ep = ep := by
    intro ms
    induction ms with
    | nil => exact fun _ => rfl
    | cons m ms ih =>
      intro hn
      have : afterMessage ep m = ep := by
        unfold afterMessage
        split
        · rename_i hm
          have : ep.reqs.find? (fun e => e.m.h.seq == m.h.seq) = none := by
            refine List.find?_eq_none.2 fun e he => ?_
            have := hn m (.head _) hm e he
            simpa using fun h => this h.symm
          rw [this]
        · rfl
      rw [List.foldl_cons, this]
      exact ih fun m hm => hn m (.tail _ hm)
  rw [key _ hn] at he
  exact he

/-! ### Examples -/

/-- What is remembered: the sequence numbers of the pending requests, how many responses are kept, the states of the CP peers, and the counter of
sequence numbers. -/
structure Remembered where
  pending : List Nat
  kept : Nat
  peers : List PState
  seq : Nat
  deriving DecidableEq

def touchObs (ops : List Op) : Option Remembered :=
  match exec ops exEp with
  | .ok ep => some ⟨ep.reqs.map (·.m.h.seq), ep.resps.length, ep.peers.map (·.state), ep.seq.toNat⟩
  | _ => none

/-- Two CP peers wait for Association Setup Responses (1 and 2), and a response (9) is kept. -/
def exTouched : List Op :=
  exAssociate ++ [.app (.newPeer 8 exOther (.associate 8 true (.tx { exAnswer with h := { version := 1, type := 2, seq := 9 } } true .done .done)))]

-- Request 1 is accepted: it is done, its CP peer is associated, nothing else has changed.  A response with another number does nothing, nor does a request, new or not.
example : touchObs exTouched = some ⟨[2, 1], 1, [.waitAssoc, .waitAssoc], 2⟩ ∧
    touchObs (exTouched ++ [.rx exUpf exAccept []]) = some ⟨[2], 1, [.waitAssoc, .associated], 2⟩ ∧
    touchObs (exTouched ++ [.rx exUpf [32, 55, 0, 9, 0, 0, 3, 0, 0, 19, 0, 1, 1] []]) = touchObs exTouched ∧
    touchObs (exTouched ++ [.rx exUpf exDelOctets []]) = touchObs exTouched ∧
    touchObs (exTouched ++ [.rx exUpf [32, 54, 0, 4, 0, 0, 9, 0] []]) = touchObs exTouched := by decide +kernel

end Verif.Props
