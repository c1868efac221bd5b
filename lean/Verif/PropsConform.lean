/-
Properties C80 and C81: conformance of the header to TS 29.244.
-/
import Verif.SpecConform
import Verif.PropsMeaning
import Verif.PropsSize

namespace Verif.Props
open Verif Spec

/-! ### C80: what is sent -/

theorem msgOctets_standard {fo : Bool} {h : Hdr} {ies : List UInt8} (hp : h.prio = 0) :
    msgOctets fo h ies = standardOctets fo h ies := by
  have e : (bodyOctets h ies).length = (part h.seidPresent (be 8 h.seid)).length + 4 + ies.length := by
    simp only [bodyOctets, List.length_append, be_length, List.length_cons, List.length_nil]
  simp only [msgOctets, standardOctets, e]
  simp [bodyOctets, hp]

/-- C80: every message without priority (or of priority 0) is encoded as the standard says, in every buffer that has room
for it, and is read back. -/
theorem C80_encoding_partial (h : Hdr) (f : Fields) (ies : Struct IeVal) (cap : Nat)
    (hf : message h.type = some f) (hg : GoodHdr h) (hp : h.prio = 0) (hs : GoodStruct f ies)
    (room : (standardOctets false h (structOctets f ies)).length ≤ cap) :
    ∃ buf, msgEncode { b := ⟨cap, []⟩ } h ies = .ok buf ∧ buf.b.data = standardOctets false h (structOctets f ies) ∧
      ∀ slack, (HasRuleNames f ies → 0 ∈ slack) → ∃ d, buf.decodeHeader slack = .ok d ∧ d.h = h ∧ decodeTlv d = .ok ies := by
  rw [← msgOctets_standard hp] at room ⊢
  obtain ⟨buf, h1, h2, h3⟩ := C19_every_message h f ies cap hf hg hs room
  refine ⟨buf, h1, h2, fun slack hsl => ?_⟩
  obtain ⟨d, g1, g2, _, g3⟩ := h3 slack hsl
  exact ⟨d, g1, g2, g3⟩

/-- A Session Deletion Request of priority 5. -/
def exPrio : Hdr := { version := 1, type := 54, seidPresent := true, seid := 1, seq := 2, prioPresent := true, prio := 5 }

set_option maxRecDepth 100000 in
/-- C80 is false of messages with a priority: it is sent in the wrong half of octet 16, and not seen in a message from a
conforming peer. -/
theorem C80_counterexample :
    GoodHdr exPrio ∧
    (∃ buf, msgEncode { b := ⟨2048, []⟩ } exPrio [] = .ok buf ∧ buf.b.data ≠ standardOctets false exPrio [] ∧
      buf.b.data[15]? = some 0x05 ∧ (standardOctets false exPrio [])[15]? = some 0x50) ∧
    ∃ d, decodeHeader (some (standardOctets false exPrio [])) 16 = .ok d ∧ d.h = { exPrio with prio := 0 } := by
  refine ⟨⟨by decide, by decide, by decide, by decide, by decide, by decide⟩, ⟨_, rfl, by decide, by decide, by decide⟩, _, rfl, rfl⟩

/-- A header without priority. -/
example : standardOctets false { version := 1, type := 54, seidPresent := true, seid := 1, seq := 2 } [] =
    [0x21, 54, 0, 12, 0, 0, 0, 0, 0, 0, 0, 1, 0, 0, 2, 0] := by decide

/-! ### C81: what is received -/

/-- Two messages that differ in the Follow On flag at most. -/
def SameButFollowOn (m m' : List UInt8) : Prop :=
  m.drop 1 = m'.drop 1 ∧ ∃ a b : UInt8, m[0]? = some a ∧ m'[0]? = some b ∧ a.toNat / 8 = b.toNat / 8 ∧ a.toNat % 4 = b.toNat % 4

theorem bitAt_first {m : List UInt8} {a : UInt8} (h : m[0]? = some a) (i : Nat) (hi : i < 8) :
    bitAt m i = decide (a.toNat / 2 ^ i % 2 = 1) := by
  unfold bitAt
  rw [show i / 8 = 0 from by omega, h]
  simp [show i % 8 = i from by omega, Nat.testBit_eq_decide_div_mod_eq]

theorem numAt_tail (m : List UInt8) (i k : Nat) (h : 1 ≤ i) : numAt m i k = numAt (m.drop 1) (i - 1) k := by
  unfold numAt
  rw [List.drop_drop, show 1 + (i - 1) = i from by omega]

theorem same_read {remote : Sockaddr} {m m' : List UInt8} {x : PMsg} (h : SameButFollowOn m m') (hx : IsReadAs remote m x) :
    IsReadAs remote m' x := by
  obtain ⟨hd, a, b, ha, hb, h1, h2⟩ := h
  have hl : m'.length = m.length := by
    have hd' := congrArg List.length hd
    have h3 : m.length ≠ 0 := by intro h0; rw [List.length_eq_zero_iff.1 h0] at ha; cases ha
    have h4 : m'.length ≠ 0 := by intro h0; rw [List.length_eq_zero_iff.1 h0] at hb; cases hb
    simp only [List.length_drop] at hd'
    omega
  have e0 : bitAt m' 0 = bitAt m 0 := by
    rw [bitAt_first ha 0 (by omega), bitAt_first hb 0 (by omega)]
    congr 1; simp; omega
  have e1 : bitAt m' 1 = bitAt m 1 := by
    rw [bitAt_first ha 1 (by omega), bitAt_first hb 1 (by omega)]
    congr 1; simp; omega
  have en : ∀ i k, 1 ≤ i → numAt m' i k = numAt m i k := by
    intro i k hi
    rw [numAt_tail m i k hi, numAt_tail m' i k hi, hd]
  have eh : announcedHeader m' = announcedHeader m := by simp only [announcedHeader, e0]
  have el : announcedLength m' = announcedLength m := by
    have := en 2 2 (by omega)
    unfold numAt at this
    simp only [announcedLength, this]
  have edrop : m'.drop (announcedHeader m') = m.drop (announcedHeader m) := by
    have hc := announcedHeader_cases m
    rw [eh]
    have : ∀ k, 1 ≤ k → m'.drop k = m.drop k := by
      intro k hk
      rw [show k = 1 + (k - 1) from by omega, ← List.drop_drop, ← List.drop_drop, hd]
    exact this _ (by omega)
  have ev : numAt m' 0 1 / 32 = numAt m 0 1 / 32 := by
    have g : ∀ (n : List UInt8) (c : UInt8), n[0]? = some c → numAt n 0 1 = c.toNat := by
      intro n c hc
      cases n with
      | nil => cases hc
      | cons d n => simp only [List.getElem?_cons_zero, Option.some.injEq] at hc; subst hc; simp [numAt, loadBE]
    rw [g m a ha, g m' b hb]; omega
  refine ⟨?_, hx.remote, hx.rx, ?_, hx.kind, ?_⟩
  · have := hx.framed
    unfold Framed at this ⊢
    rw [hl, eh, el, e0, e1]
    exact this
  · rw [hx.header]
    have e4 : numAt m' (if bitAt m 0 = true then 12 else 4) 3 = numAt m (if bitAt m 0 = true then 12 else 4) 3 :=
      en _ _ (by split <;> omega)
    simp only [headerAt, ev, e0, e1, en 1 1 (by omega), optAt, en 4 8 (by omega), en 15 1 (by omega), e4]
  · have := hx.ies
    unfold BodyMeans at this ⊢
    rw [en 1 1 (by omega), edrop]
    exact this

/-- C81: the Follow On flag makes no difference: with or without it, a message is handled in the same way, and what
follows it is handled (C79: `DatagramMeans` does not mention the flag). -/
theorem C81_follow_on_ignored (remote : Sockaddr) (m m' : List UInt8) (h : SameButFollowOn m m') (x : PMsg) :
    IsReadAs remote m x ↔ IsReadAs remote m' x := by
  refine ⟨same_read h, same_read ?_⟩
  obtain ⟨hd, a, b, ha, hb, h1, h2⟩ := h
  exact ⟨hd.symm, b, a, hb, ha, h1.symm, h2.symm⟩

/-- C81: the version is reported as it was received, so that a user can look at it. -/
theorem C81_version_reported_partial {ep ep' : Ep} (h : Reached ep) {remote d rs} (hs : ep.sock = true) (hd : d ≠ [])
    (hlen : d.length < 2048) (hcov : Covered d) (hr : ep.rxDatagram remote d rs = .ok ep') :
    ∃ l, ep'.log = l ++ ep.log ∧ ∀ x ∈ receivedMsgs l, ∃ m, IsReadAs remote m x ∧ x.h.version = numAt m 0 1 / 32 := by
  obtain ⟨l, h1, h2⟩ := C79_datagram h hs hd hlen hcov hr
  refine ⟨l, h1, ?_⟩
  generalize receivedMsgs l = xs at h2
  clear h1 hr hcov hlen hd
  intro x hx
  induction h2 with
  | stop => cases hx
  | good g _ ih =>
    rcases List.mem_cons.1 hx with rfl | hx
    · exact ⟨_, g, by rw [g.header]; rfl⟩
    · exact ih hx
  | bad _ _ _ ih => exact ih hx

set_option maxRecDepth 100000 in
/-- C81 is false: a Heartbeat Request of version 7 without Follow On, and behind it another one, are both answered by the endpoint. -/
theorem C81_counterexample :
    ∃ ep, exec [.app (.bind true .done),
        .rx exRemote ([0xe0, 1, 0, 12, 0, 0, 9, 0, 0, 96, 0, 4, 0, 0, 0, 7] ++ [0x20, 1, 0, 12, 0, 0, 8, 0, 0, 96, 0, 4, 0, 0, 0, 7]) []]
        exEp = .ok ep ∧ (heartbeatReplies ep.log).map (fun x => x.2.1) = [exRemote, exRemote] := by
  refine ⟨_, rfl, ?_⟩
  decide

/-- The same message with and without Follow On. -/
example : SameButFollowOn (0x24 :: exModResp.tail) exModResp := ⟨rfl, 0x24, 0x20, rfl, rfl, rfl, rfl⟩

end Verif.Props
