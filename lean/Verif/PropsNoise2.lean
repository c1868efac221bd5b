/-
Noise does not prevent an endpoint from doing anything: C121, the other direction.
-/
import Verif.PropsNoise
import Verif.PropsSafe

namespace Verif.Spec
open Verif

/-- The sequence number in a header. -/
def announcedSeq (o : List UInt8) : Nat := loadBE ((o.drop (announcedHeader o - 4)).take 3)

/-- No response in the datagram has the sequence number of a pending request. -/
def Unasked (ep : Ep) (d : List UInt8) : Prop :=
  ∀ i, Begins d i → ((d.drop i)[1]?.getD 0).toNat ∈ responseTypes → ∀ e ∈ ep.reqs, announcedSeq (d.drop i) ≠ e.m.h.seq

/-- In state `ep`, the history `quiet` is possible, and `noisy` is that with additional datagrams: they have less than 2048 octets, their length fields cover the
headers, no response in them is one to a request that is pending in this moment, and the application does nothing about them. -/
inductive Disturbed : Ep → List Act → List Act → Prop
  | done {ep} : Disturbed ep [] []
  | act {ep ep1 a quiet noisy} : Act.step a ep = .ok ep1 → Disturbed ep1 quiet noisy → Disturbed ep (a :: quiet) (a :: noisy)
  | noise {ep remote d rs quiet noisy} : d.length < 2048 → Covered d → Unasked ep d → (∀ r ∈ rs, CallsNothing r) →
      Disturbed ep quiet noisy → Disturbed ep quiet (.rx remote d rs :: noisy)

end Verif.Spec

namespace Verif.Props
open Verif Spec

/-- What the headers say. -/
theorem rxLoop_seq (slack : List UInt8) (o : List UInt8) :
    ∀ (fuel i : Nat) (l : List Rx), Begins o i → i ≤ o.length → rxLoop fuel (o.drop i ++ slack) (o.length - i) = .ok l →
      ∀ x ∈ l, ∃ j, Begins o j ∧ x.hdr.isResponse = isResponseType ((o.drop j)[1]?.getD 0).toNat ∧ x.hdr.h.seq = announcedSeq (o.drop j)
  | 0, _, l, _, _, h => by cases h
  | fuel + 1, i, l, hb, hi, h => by
    have hlen : (o.drop i).length = o.length - i := by simp
    unfold rxLoop at h
    split at h
    · cases h; nofun
    have hform := decodeHeader_form (o.drop i) slack
    rw [hlen] at hform
    cases hd : decodeHeader (some (o.drop i ++ slack)) (o.length - i) with
    | err e => rw [hd] at h; cases h; nofun
    | abort => rw [hd] at h; cases h
    | ub => rw [hd] at h; cases h
    | diverge => rw [hd] at h; cases h
    | ok d =>
      rw [hd] at hform h
      split at hform
      · cases hform
      split at hform
      · cases hform
      split at hform
      · cases hform
      have hmsg : d.msgLen = announcedLength (o.drop i) := by cases hform; rfl
      have hresp : d.isResponse = isResponseType ((o.drop i)[1]?.getD 0).toNat ∧ d.h.seq = announcedSeq (o.drop i) := by cases hform; exact ⟨rfl, rfl⟩
      have hml := decodeHeader_msgLen hd
      have e1 : (o.drop i ++ slack).drop d.msgLen = o.drop (i + d.msgLen) ++ slack := by
        rw [List.drop_append_of_le_length (by rw [hlen]; omega), List.drop_drop]
      have e2 : o.length - i - d.msgLen = o.length - (i + d.msgLen) := by omega
      dsimp only at h
      rw [e1, e2] at h
      have key := fun l' => rxLoop_seq slack o fuel (i + d.msgLen) l' (by rw [hmsg]; exact hb.next) (by omega)
      cases ht : decodeTlv d with
      | ok ies =>
        rw [ht] at h
        obtain ⟨l', h1, h⟩ := Res.bind_eq_ok h
        cases h
        intro x hx
        rcases List.mem_cons.1 hx with rfl | hx
        · exact ⟨i, hb, hresp⟩
        · exact key l' h1 x hx
      | err e =>
        rw [ht] at h
        obtain ⟨l', h1, h⟩ := Res.bind_eq_ok h
        cases h
        intro x hx
        rcases List.mem_cons.1 hx with rfl | hx
        · exact ⟨i, hb, hresp⟩
        · exact key l' h1 x hx
      | abort => rw [ht] at h; cases h
      | ub => rw [ht] at h; cases h
      | diverge => rw [ht] at h; cases h

theorem setCtx_idle_ok {ep : Ep} {k req r} (hr : CallsNothing r) :
    ∃ l, ep.setCtx k req r = .ok { ep with use := fun u => ep.use u + (ep.rxUses r).count u, log := l } := by
  unfold Ep.setCtx
  split
  · rw [hr.1]; exact ⟨_, rfl⟩
  · rename_i hc
    unfold Ep.rxUses
    rw [if_neg hc]
    exact ⟨_, rfl⟩

theorem heartbeatReply_ok (ep : Ep) (k m io) : ∃ ep1, ep.heartbeatReply k m io = .ok ep1 := by
  unfold Ep.heartbeatReply
  split
  · obtain ⟨⟨ep2, m2, rc⟩, h2⟩ := sendMsg_total (ep := { ep with nextId := ep.nextId + 1 }) (why := .heartbeatReply k)
      (id := ep.nextId) (io := io) (m := heartbeatResp m ep.rts) (by rw [heartbeatResp_encode]; trivial)
    rw [h2]
    exact ⟨_, rfl⟩
  · exact ⟨_, rfl⟩

/-- A message that answers no pending request can be handled. -/
theorem handleRx_noise_ok {ep : Ep} (h : Reached ep) {m r} (hr : CallsNothing r)
    (hm : m.isResponse = true → ∀ e ∈ ep.reqs, m.h.seq ≠ e.m.h.seq) : ∃ ep', ep.handleRx m r = .ok ep' := by
  have hi : Inv (ep, {}) := h.inv
  unfold Ep.handleRx
  dsimp only
  have h1 : ∃ l n, ({ ep with nextId := ep.nextId + 1 }.note (.received ep.nextId m)).heartbeatReply ep.nextId m r.io =
      .ok { ep with log := l, nextId := n } := by
    have hx := heartbeatReply_ok ({ ep with nextId := ep.nextId + 1 }.note (.received ep.nextId m)) ep.nextId m r.io
    obtain ⟨ep1, hx⟩ := hx
    obtain ⟨l, n, rfl⟩ := heartbeatReply_idle hx
    exact ⟨l, n, hx⟩
  obtain ⟨l, n, h1⟩ := h1
  rw [h1]
  show ∃ ep', (Res.bind (Ep.handleMsg _ _ _ _) _) = _
  have h2 : ∃ l', ({ ep with log := l, nextId := n } : Ep).handleMsg ep.nextId m r =
      .ok { ep with log := l', nextId := n, use := fun u => ep.use u + (ep.rxUses r).count u } := by
    unfold Ep.handleMsg
    cases hres : m.isResponse with
    | true =>
      have hq : queueFind ep.reqs m = none := by
        cases hf : queueFind ep.reqs m with
        | none => rfl
        | some prev =>
          obtain ⟨g1, g2⟩ := queueFind_some hf
          exact absurd g2.symm (hm hres prev g1)
      simp only [if_true]
      rw [hq]
      dsimp only
      obtain ⟨l2, h2⟩ := setCtx_idle_ok (ep := { ep with log := l, nextId := n }) (k := ep.nextId) (req := none) hr
      rw [h2]
      show ∃ l', Ep.dispatch _ _ _ _ = _
      unfold Ep.dispatch
      rw [hr.2.2]
      exact ⟨_, rfl⟩
    | false =>
      simp only [Bool.false_eq_true, if_false]
      cases hf : queueFind ep.resps m with
      | none =>
        dsimp only
        obtain ⟨l2, h2⟩ := setCtx_idle_ok (ep := { ep with log := l, nextId := n }) (k := ep.nextId) (req := none) hr
        rw [h2]
        show ∃ l', Ep.dispatch _ _ _ _ = _
        unfold Ep.dispatch
        rw [hr.2.2]
        exact ⟨_, rfl⟩
      | some prev =>
        obtain ⟨hp, -⟩ := queueFind_some hf
        dsimp only
        unfold Ep.handleDuplicate Ep.using
        obtain ⟨l2, h2⟩ := setCtx_idle_ok (ep := { ep with log := l, nextId := n, busy := prev.id :: ep.busy }) (k := ep.nextId) (req := none) hr
        dsimp only at h2 ⊢
        rw [h2]
        have hl := look_of_mem hi.nodupResps hp
        have hl' : ep.resps.find? (fun e => e.id = prev.id) = some prev := hl
        obtain ⟨_, _, _, o, _, hs, -⟩ := hi.response hl
        have hsock : ep.sock = true := hi.sock (.inr (List.ne_nil_of_mem hp))
        simp only [Res.bind_ok']
        rw [hl']
        dsimp only
        unfold Ep.sendMsg
        rw [hs.encode]
        dsimp only
        rw [if_pos hsock]
        have he : { prev with m := { prev.m with encoded := some o } } = prev := by rw [← hs.encoded]
        simp only [Res.bind_ok']
        rw [he]
        have hset := setEntry_self hi.nodupResps hp
        simp only [Ep.note, hset]
        exact ⟨_, rfl⟩
  obtain ⟨l', h2⟩ := h2
  rw [h2]
  show ∃ ep', Ep.releaseUses _ _ = _
  refine releaseUses_total fun u => ?_
  show (ep.rxUses r).count u ≤ ep.use u + (ep.rxUses r).count u
  omega

theorem handleAll_noise_ok {remote} : ∀ {msgs : List Rx} {rs : List React} {ep : Ep}, Reached ep → (∀ r ∈ rs, CallsNothing r) →
    (∀ x ∈ msgs, x.hdr.isResponse = true → ∀ e ∈ ep.reqs, x.hdr.h.seq ≠ e.m.h.seq) →
    ∃ ep', ep.handleAll remote msgs rs = .ok ep' ∧
      ∀ l, ep'.log = l ++ ep.log → ∀ k m, Event.received k m ∈ l → m.isResponse = true → ∀ e ∈ ep.reqs, m.h.seq ≠ e.m.h.seq
  | [], _, ep, _, _, _ => ⟨ep, rfl, fun l hl k m hk => by
      have : l = [] := by
        have := congrArg List.length hl
        rw [List.length_append] at this
        exact List.length_eq_zero_iff.1 (by omega)
      rw [this] at hk; cases hk⟩
  | ⟨_, none⟩ :: l, rs, ep, h0, hr, hm => handleAll_noise_ok (msgs := l) h0 hr fun x hx => hm x (.tail _ hx)
  | ⟨d, some ies⟩ :: l, rs, ep, h0, hr, hm => by
    have hhead : CallsNothing (rs.headD {}) := by
      cases rs with
      | nil => exact ⟨rfl, rfl, rfl⟩
      | cons r rs => exact hr r (.head _)
    have hm0 : (Rx.msg remote d ies).isResponse = true → ∀ e ∈ ep.reqs, (Rx.msg remote d ies).h.seq ≠ e.m.h.seq := hm ⟨d, some ies⟩ (.head _)
    obtain ⟨ep1, h1⟩ := handleRx_noise_ok h0 hhead hm0
    obtain ⟨-, -, l', n', hst⟩ := handleRx_noise h0 hhead h1 hm0
    have hreqs : ep1.reqs = ep.reqs := by rw [hst]
    obtain ⟨la, ha, -, hone, -⟩ := h0.rxNew h1
    have h01 := h0.rx _ _ h1
    obtain ⟨ep2, h2, hno⟩ := handleAll_noise_ok (msgs := l) (remote := remote) h01 (fun r hr' => hr r (List.mem_of_mem_tail hr'))
      (by rw [hreqs]; exact fun x hx => hm x (.tail _ hx))
    obtain ⟨lb, hb⟩ := handleAll_more h01 h2
    refine ⟨ep2, ?_, fun ll hll k m hk hres => ?_⟩
    · show (ep.handleRx (Rx.msg remote d ies) (rs.headD {})).bind _ = _
      rw [h1]; exact h2
    · have : ll = lb ++ la := by
        rw [hb, ha, ← List.append_assoc] at hll
        exact (List.append_cancel_right hll).symm
      rw [this] at hk
      rcases List.mem_append.1 hk with hk | hk
      · rw [← hreqs]; exact hno lb hb k m hk hres
      · obtain ⟨-, rfl⟩ := hone k m hk
        exact hm0 hres

/-- Such a datagram can be received, and is noise. -/
theorem noise_ok {ep : Ep} (h : Reached ep) {remote} {d : List UInt8} {rs} (hd : d.length < 2048) (hc : Covered d) (hu : Unasked ep d)
    (hr : ∀ r ∈ rs, CallsNothing r) : ∃ ep', ep.rxDatagram remote d rs = .ok ep' ∧ Noise ep rs ep' := by
  unfold Ep.rxDatagram
  have ht : d.take allocSize = d := List.take_of_length_le (by unfold allocSize; omega)
  dsimp only
  rw [ht]
  split
  · refine ⟨_, rfl, hr, fun l hl k m hk => ?_⟩
    have : l = [] := by
      have := congrArg List.length hl
      rw [List.length_append] at this
      exact List.length_eq_zero_iff.1 (by omega)
    rw [this] at hk; cases hk
  rename_i hs
  rw [if_neg (by
    intro hx
    refine hs (.inl ?_)
    intro hk
    exact hx ((C53_receives h).1 hk))]
  obtain ⟨l, hl⟩ := rxBundle_total (o := d) (slack := List.replicate (allocSize - d.length) 0)
    (List.mem_replicate.mpr ⟨by unfold allocSize; omega, rfl⟩) hc
  rw [hl]
  obtain ⟨ep', h1, h2⟩ := handleAll_noise_ok (remote := remote) (msgs := l) h hr fun x hx hxr => by
    rw [rxBundle_eq] at hl
    obtain ⟨j, hj, hj', hj2⟩ := rxLoop_seq _ d (d.length + 1) 0 l .first (Nat.zero_le _) (by simpa using hl) x hx
    rw [hj', C33_response_types] at hxr
    rw [hj2]
    exact hu j hj hxr
  exact ⟨ep', h1, hr, h2⟩

theorem RR.ok' {α : Type} {P : α → α → Prop} {x y : Res α} (h : RR P x y) {a} (hx : x = .ok a) : ∃ b, y = .ok b ∧ P a b := by
  subst hx
  cases y <;> simp only [RR] at h
  exact ⟨_, rfl, h⟩

theorem Pair.stepBack {f d} {a a' b : Ep} (h : Pair f d a b) {x : Act} (hx : x.step a = .ok a') : ∃ b', x.step b = .ok b' := by
  let R : Ren := ⟨f, d, a.nextId, b.log, h.inj, h.shift⟩
  let I : Ren := ⟨fun i => i, 0, a.nextId, a.log, fun _ _ h => h, fun _ _ => rfl⟩
  have hlow : Low { a with log := [] } := ⟨h.reqs, h.resps, fun _ h => by cases h⟩
  have s1 : Sim R a.nextId { a with log := [] } b := ⟨h.eq, Nat.le_refl _, Nat.le_refl _, hlow⟩
  have s2 : Sim I a.nextId { a with log := [] } a := by
    refine ⟨?_, Nat.le_refl _, Nat.le_refl _, hlow⟩
    show a = { a with reqs := a.reqs.map fun e => e, resps := a.resps.map fun e => e, busy := a.busy.map fun i => i, nextId := a.nextId + 0, log := [] ++ a.log }
    simp only [List.map_id', Nat.add_zero, List.nil_append]
  obtain ⟨c', hc, -⟩ := (act_ren s2 x).ok hx
  obtain ⟨b', hb, -⟩ := RR.ok' (act_ren s1 x) hc
  exact ⟨b', hb⟩

theorem disturbed_sim {a : Ep} {quiet noisy} (hw : Disturbed a quiet noisy) : ∀ {f d} {b : Ep}, Pair f d a b → Reached b →
    ∃ b', WithNoise b quiet noisy b' := by
  induction hw with
  | done => exact fun _ _ => ⟨_, .done⟩
  | @act a a1 x quiet noisy hx _ ih =>
    intro f d b h hr
    obtain ⟨b1, hb⟩ := h.stepBack hx
    obtain ⟨a1', l, e1, h1, -⟩ := h.step hb
    have : a1' = a1 := by rw [hx] at e1; cases e1; rfl
    subst this
    obtain ⟨b', hw⟩ := ih h1 (reached_act hr hb)
    exact ⟨b', .act hb hw⟩
  | @noise a remote d rs quiet noisy h1 h2 h3 h4 _ ih =>
    intro f dd b h hr
    have hu : Unasked b d := by
      intro i hi ht e he
      rw [h.eq] at he
      obtain ⟨x, hx, rfl⟩ := List.mem_map.1 he
      exact h3 i hi ht x hx
    obtain ⟨b1, hb, hn⟩ := noise_ok hr (remote := remote) h1 h2 hu h4
    obtain ⟨f1, d1, hp⟩ := h.noise hr hb hn
    obtain ⟨b', hw⟩ := ih hp (.op (.rx remote d rs) hr hb)
    exact ⟨b', .noise hb hn hw⟩

/-- C121: and noise prevents nothing.  If a history is possible, then it is also possible with additional datagrams of less than 2048 octets, whose length fields cover the
headers, that answer no pending request and that the application does nothing about (so that `C121_noise` holds of it). -/
theorem C121_undisturbed {ep : Ep} (h : Reached ep) {quiet noisy} (hd : Disturbed ep quiet noisy) : ∃ n, WithNoise ep quiet noisy n :=
  disturbed_sim hd (Pair.start h) h

/-! ### Example -/

/-- A datagram of one message. -/
theorem unasked_one {ep : Ep} {d : List UInt8} (hl : announcedLength d = d.length)
    (h : (d[1]?.getD 0).toNat ∈ responseTypes → ∀ e ∈ ep.reqs, announcedSeq d ≠ e.m.h.seq) : Unasked ep d := by
  have key : ∀ i, Begins d i → i = 0 ∨ d.length ≤ i := by
    intro i h
    induction h with
    | first => exact .inl rfl
    | @next i _ ih =>
      rcases ih with rfl | ih
      · exact .inr (by rw [List.drop_zero, hl]; omega)
      · exact .inr (by omega)
  intro i hi ht
  rcases key i hi with rfl | hle
  · exact h ht
  · rw [List.drop_eq_nil_of_le hle] at ht
    exact absurd ht (by decide)

/-- An Association Setup Response that nobody asked for. -/
def exUnaskedOctets : List UInt8 := [32, 55, 0, 9, 0, 0, 3, 0, 0, 19, 0, 1, 1]

theorem exUnaskedOctets_covered : Covered exUnaskedOctets := by
  have := C72_framed_covered [exUnaskedOctets] (by intro m hm; cases List.mem_singleton.mp hm; exact ⟨by decide, by decide, by decide, by decide⟩)
  simpa using this

-- The hypotheses are met: a request is pending (1) while a response (3) is received.
example : Disturbed exEp [.app (.bind true (.tx exReq true .done .done)), .advance 100, .reqTimer 0 true .done]
    [.app (.bind true (.tx exReq true .done .done)), .rx exUpf exUnaskedOctets [], .advance 100, .reqTimer 0 true .done] := by
  have h : ∃ ep1, Act.step (.app (.bind true (.tx exReq true .done .done))) exEp = .ok ep1 ∧ (∀ e ∈ ep1.reqs, announcedSeq exUnaskedOctets ≠ e.m.h.seq) ∧
      ∃ ep2, Act.step (.advance 100) ep1 = .ok ep2 ∧ ∃ ep3, Act.step (.reqTimer 0 true .done) ep2 = .ok ep3 := by
    have hb : (match Act.step (.app (.bind true (.tx exReq true .done .done))) exEp with
      | .ok ep1 => ep1.reqs.all (fun e => decide (announcedSeq exUnaskedOctets ≠ e.m.h.seq)) && match Act.step (.advance 100) ep1 with
        | .ok ep2 => match Act.step (.reqTimer 0 true .done) ep2 with
          | .ok _ => true
          | _ => false
        | _ => false
      | _ => false) = true := by decide +kernel
    split at hb
    · rename_i ep1 h1
      rw [Bool.and_eq_true] at hb
      refine ⟨ep1, h1, fun e he => of_decide_eq_true (List.all_eq_true.1 hb.1 e he), ?_⟩
      have hb := hb.2
      split at hb
      · rename_i ep2 h2
        refine ⟨ep2, h2, ?_⟩
        split at hb
        · rename_i ep3 h3
          exact ⟨ep3, h3⟩
        · cases hb
      · cases hb
    · cases hb
  obtain ⟨ep1, h1, hu, ep2, h2, ep3, h3⟩ := h
  exact .act h1 (.noise (by decide) exUnaskedOctets_covered (unasked_one (by decide) fun _ => hu) (fun _ h => by cases h)
    (.act h2 (.act h3 .done)))

end Verif.Props
