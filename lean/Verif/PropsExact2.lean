/-
Exact outcomes, where the theorems of C22, C29, C36, C40 and C80 give sufficient conditions.
-/
import Verif.PropsConform
import Verif.PropsExact

namespace Verif.Props
open Verif Spec

/-! ### C22 -/

/-- C22: header and TLV window make up the message exactly if the length field covers the header.  If it does not, then the
length of the window is what is missing, subtracted from 2^32. -/
theorem C22_exactly (o rest : List UInt8) (d : DecHdr) (h : decodeHeader (some (o ++ rest)) o.length = .ok d) :
    (announcedHeader o + d.tlvLen = d.msgLen ↔ announcedHeader o ≤ announcedLength o) ∧
    (announcedLength o < announcedHeader o → d.tlvLen = 2 ^ 32 - (announcedHeader o - announcedLength o)) := by
  rw [decodeHeader_form] at h
  have ha := announcedHeader_cases o
  split at h
  · simp at h
  · split at h
    · simp at h
    · split at h
      · simp at h
      · simp only [Res.ok.injEq] at h
        subst h
        have : announcedLength o < 2 ^ 32 := by
          have := loadBE_lt ((o.drop 2).take 2)
          have h2 : ((o.drop 2).take 2).length ≤ 2 := by simp; omega
          have h3 : 256 ^ ((o.drop 2).take 2).length ≤ 256 ^ 2 := Nat.pow_le_pow_right (by omega) h2
          unfold announcedLength; omega
        simp only
        by_cases hc : announcedHeader o ≤ announcedLength o
        · have e : announcedLength o + 2 ^ 32 - announcedHeader o = (announcedLength o - announcedHeader o) + 2 ^ 32 := by omega
          rw [e, Nat.add_mod_right, Nat.mod_eq_of_lt (by omega)]
          exact ⟨by omega, by omega⟩
        · rw [Nat.mod_eq_of_lt (by omega)]
          exact ⟨by omega, by omega⟩

/-- Both cases occur: see `C22_counterexample`, and the example of `C22_window_partial`. -/
example : announcedHeader [0x20, 1, 0, 0, 0, 0, 1, 0] = 8 ∧ announcedLength [0x20, 1, 0, 0, 0, 0, 1, 0] = 4 := by decide

/-! ### C29 -/

theorem buf_err {o : Out Msgb} {l3 l4 : Option Nat} {e : Errno} {buf' : Buf} (h : Out.buf l3 l4 o = .err e buf') :
    o = .err e buf'.b ∧ buf'.l4h = l4 := by
  cases o <;> simp only [Out.buf, reduceCtorEq, Out.err.injEq] at h
  obtain ⟨rfl, rfl⟩ := h
  exact ⟨rfl, rfl⟩

/-- C29: an error of osmo_pfcp_msg_encode() always leaves octets of the message behind: at least its header, with a length field
as of a message without IEs, so that a receiver of the buffer would see such a message; and a message that is encoded next is
bundled with this one. -/
theorem C29_what_is_left (buf : Buf) (h : Hdr) (hg : GoodHdr h) (ies : Struct IeVal) (e : Errno) (buf' : Buf)
    (he : msgEncode buf h ies = .err e buf') :
    (∃ junk, buf'.b.data.drop buf.b.data.length = msgOctets false h [] ++ junk) ∧ buf'.l4h = some buf.b.data.length := by
  have hlen : (setFollowOn buf).data.length = buf.b.data.length := by
    unfold setFollowOn; split
    · rfl
    · split <;> simp
  rw [msgEncode_eq _ _ _ (good_carried hg)] at he
  obtain ⟨he, hl4⟩ := buf_err he
  rw [hlen] at hl4
  refine ⟨?_, hl4⟩
  have hho : headerOctets h = msgOctets false h [] := headerOctets_eq h (good_carried hg)
  have key : ∀ b1 : Msgb, Grown { setFollowOn buf with data := (setFollowOn buf).data ++ headerOctets h } b1 →
      ∃ junk, b1.data.drop buf.b.data.length = msgOctets false h [] ++ junk := by
    rintro b1 ⟨_, ⟨x, hx⟩, _⟩
    refine ⟨x, ?_⟩
    rw [hx, List.append_assoc, ← hlen, List.drop_left, hho]
  have hgr := encTlv_grows h ies { setFollowOn buf with data := (setFollowOn buf).data ++ headerOctets h }
  by_cases hroom : (setFollowOn buf).data.length + headerLen h.seidPresent ≤ (setFollowOn buf).cap
  · simp only [if_pos hroom] at he
    cases hx : encTlv h ies { setFollowOn buf with data := (setFollowOn buf).data ++ headerOctets h } with
    | ok b1 =>
      rw [hx] at he
      simp only [Out.bind_ok, setMessageLength] at he
      have hk := key b1 (hgr.1 b1 hx)
      split at he
      · simp only [Out.err.injEq] at he
        rw [← he.2]; exact hk
      · split at he
        · simp only [Out.err.injEq] at he
          rw [← he.2]; exact hk
        · cases he
    | err e1 b1 =>
      rw [hx] at he
      simp only [Out.bind_err, Out.err.injEq] at he
      rw [← he.2]
      exact key b1 (hgr.2 e1 b1 hx)
    | _ => rw [hx] at he; cases he
  · simp only [if_neg hroom] at he
    cases he

/-- The hypotheses are met: a message of a type that the library does not support, in an empty buffer, and the octets that are
left. -/
example : GoodHdr { version := 1, type := 56, seq := 2 } ∧
    ∃ buf', msgEncode { b := ⟨200, []⟩ } { type := 56, seq := 2 } [] = .err .ENOTSUP buf' ∧
      buf'.b.data = [0x20, 56, 0, 4, 0, 0, 2, 0] := by
  exact ⟨⟨by decide, by decide, by decide, by decide, by decide, by decide⟩, _, rfl, by decide⟩

/-! ### C36 -/

/-- C36: Activate Predefined Rules, exactly: if there is a zero octet anywhere, in the IE or in memory behind it, then the
string is that of the IE; otherwise the decoder reads outside the memory. -/
theorem C36_apr_exactly (v rest : List UInt8) :
    ieDec .apr (v ++ rest) v.length = if (0 : UInt8) ∈ v ++ rest then .ok (.apr ((cstr v).take 255)) else .ub := by
  by_cases h : (0 : UInt8) ∈ v ++ rest
  · rw [if_pos h]
    by_cases hr : (0 : UInt8) ∈ rest
    · exact C36_apr_partial v rest hr
    · -- the zero octet is in the IE: what follows does not matter
      have hz : (0 : UInt8) ∈ v := (List.mem_append.1 h).resolve_right hr
      have e0 : readCStr (v ++ rest) = .ok (cstr (v ++ rest)) := by simp [readCStr, hz]
      have e1 : readCStr (v ++ [0]) = .ok (cstr (v ++ [0])) := by simp [readCStr]
      have e2 : ∀ r : List UInt8, cstr (v ++ r) = cstr v := by
        intro r
        clear e0 e1 hr h
        induction v with
        | nil => simp at hz
        | cons c v ih =>
          simp only [cstr, List.cons_append] at ih ⊢
          by_cases hc : c = 0
          · simp [hc]
          · rw [List.takeWhile_cons_of_pos (by simpa using hc), List.takeWhile_cons_of_pos (by simpa using hc)]
            rw [ih ((List.mem_cons.1 hz).resolve_left fun h => hc h.symm)]
      have := C36_apr_partial v [0] (by simp)
      simp only [ieDec, decApr, e0, e1, e2, Res.bind_ok'] at this ⊢
      exact this
  · rw [if_neg h]
    simp only [ieDec, decApr, readCStr, if_neg h]
    rfl

/-- All three cases. -/
example : ieDec .apr ([97, 0, 98] ++ [1]) 3 = .ok (.apr [97]) ∧ ieDec .apr ([97, 98] ++ [1, 0]) 2 = .ok (.apr [97, 98]) ∧
    ieDec .apr ([97, 98] ++ [1]) 2 = .ub := by decide

/-! ### C40 -/

/-- The octets that are sent for a Node ID, whatever it contains: an address of the wrong family is sent as zero octets, but
for an IPv4 address in the place of an IPv6 address, which is sent as the first four of them. -/
def nodeIdSent : NodeId → Option (List UInt8)
  | .v4 (.inet x _) => some ([0] ++ be 4 x)
  | .v4 _ => some [0, 0, 0, 0, 0]
  | .v6 (.inet6 x _) => some ([1] ++ be 16 x)
  | .v6 (.inet x _) => some ([1] ++ be 4 x ++ List.replicate 12 0)
  | .v6 _ => some ([1] ++ List.replicate 16 0)
  | .fqdn s => some ([2] ++ labelOctets (labelsOf s))
  | .other _ => none

/-- C40, exactly: what osmo_pfcp_enc_node_id() appends, for every Node ID. -/
theorem C40_exactly (n : NodeId) (b b' : Msgb) :
    ieEnc (.nodeId n) b = .ok b' ↔
      ∃ o, nodeIdSent n = some o ∧ b.data.length + o.length ≤ b.cap ∧ b' = { b with data := b.data ++ o } := by
  have hput : ∀ (o1 o2 : List UInt8), ((b.put o1).bind fun b => b.put o2) = .ok b' ↔
      b.data.length + (o1 ++ o2).length ≤ b.cap ∧ b' = { b with data := b.data ++ (o1 ++ o2) } := by
    intro o1 o2
    simp only [Msgb.put]
    by_cases h1 : b.data.length + o1.length ≤ b.cap
    · rw [if_pos h1, Out.bind_ok]
      simp only [List.length_append]
      by_cases h2 : b.data.length + o1.length + o2.length ≤ b.cap
      · rw [if_pos h2]
        simp only [Out.ok.injEq, List.append_assoc]
        constructor
        · rintro rfl; exact ⟨by omega, rfl⟩
        · rintro ⟨_, rfl⟩; rfl
      · rw [if_neg h2]
        constructor
        · intro h; cases h
        · rintro ⟨h, _⟩; omega
    · rw [if_neg h1]
      simp only [List.length_append]
      constructor
      · intro h; cases h
      · rintro ⟨h, _⟩; omega
  cases n with
  | v4 a =>
    simp only [ieEnc, encNodeId, Msgb.num]
    rw [hput]
    cases a <;> simp [nodeIdSent, Sockaddr.toOctets, be_eq, storeBE]
  | v6 a =>
    simp only [ieEnc, encNodeId, Msgb.num]
    rw [hput]
    cases a <;> simp [nodeIdSent, Sockaddr.toOctets, be_eq, storeBE]
  | fqdn s =>
    have hl := labelOctets_length s
    simp only [ieEnc, encNodeId, Msgb.num, nodeIdSent, Option.some.injEq]
    constructor
    · intro h
      obtain ⟨b1, h1, h2⟩ := Out.bind_eq_ok h
      refine ⟨_, rfl, (hput _ _).1 ?_⟩
      rw [show ([2] : List UInt8) = storeBE 1 2 from by decide, h1, Out.bind_ok]
      simp only [encName, apnFromStr] at h2
      split at h2
      · cases h2
      · next o ho =>
        split at ho
        · cases ho
        · simp only [Option.some.injEq] at ho
          rw [← apnLabels_nil, ho]; exact h2
    · rintro ⟨o, rfl, h⟩
      have h1 := (hput _ _).2 h
      obtain ⟨b1, h2, h3⟩ := Out.bind_eq_ok h1
      rw [show storeBE 1 2 = [2] from by decide, h2, Out.bind_ok]
      simp only [encName, apnFromStr]
      rw [if_neg]
      · rw [apnLabels_nil]; exact h3
      · simp only [Msgb.put] at h2
        split at h2
        · simp only [Out.ok.injEq] at h2
          subst h2
          have := h.1
          simp only [List.length_append, List.length_cons, List.length_nil, hl, Msgb.tailroom] at this ⊢
          omega
        · cases h2
  | other t =>
    simp only [ieEnc, encNodeId, Msgb.num, nodeIdSent]
    constructor
    · intro h
      obtain ⟨b1, _, h2⟩ := Out.bind_eq_ok h
      cases h2
    · rintro ⟨_, h, _⟩; cases h

/-- Node IDs of the wrong family. -/
example : nodeIdSent (.v6 (.inet 0x7f000001 0)) = some [1, 127, 0, 0, 1, 0, 0, 0, 0, 0, 0, 0, 0, 0, 0, 0, 0] ∧
    nodeIdSent (.v4 (.inet6 1 0)) = some [0, 0, 0, 0, 0] ∧
    ieEnc (.nodeId (.v6 (.inet 0x7f000001 0))) { cap := 17, data := [] } =
      .ok { cap := 17, data := [1, 127, 0, 0, 1, 0, 0, 0, 0, 0, 0, 0, 0, 0, 0, 0, 0] } := by decide

/-! ### C80 -/

/-- C80, exactly: a message is encoded as the standard says if and only if its priority is 0. -/
theorem C80_encoding_exactly (h : Hdr) (f : Fields) (ies : Struct IeVal) (cap : Nat)
    (hf : message h.type = some f) (hg : GoodHdr h) (hs : GoodStruct f ies)
    (room : (standardOctets false h (structOctets f ies)).length ≤ cap) :
    ∃ buf, msgEncode { b := ⟨cap, []⟩ } h ies = .ok buf ∧
      (buf.b.data = standardOctets false h (structOctets f ies) ↔ h.prio = 0) := by
  have hl : (standardOctets false h (structOctets f ies)).length = (msgOctets false h (structOctets f ies)).length := by
    simp only [standardOctets, msgOctets, bodyOctets, List.length_append, be_length, List.length_cons, List.length_nil]
    omega
  obtain ⟨buf, h1, h2, -⟩ := C19_every_message h f ies cap hf hg hs (by omega)
  refine ⟨buf, h1, ⟨fun he => ?_, fun hp => by rw [h2, msgOctets_standard hp]⟩⟩
  rw [h2] at he
  cases hpp : h.prioPresent with
  | false =>
    have := hg.prio
    simpa [hpp] using this
  | true =>
    have hlt := hg.prio
    rw [hpp, if_pos rfl] at hlt
    have e : (bodyOctets h (structOctets f ies)).length = (part h.seidPresent (be 8 h.seid)).length + 4 + (structOctets f ies).length := by
      simp only [bodyOctets, List.length_append, be_length, List.length_cons, List.length_nil]
    simp only [msgOctets, standardOctets, e] at he
    simp only [bodyOctets, List.append_assoc, List.append_cancel_left_eq, hpp, if_true,
      List.cons_append, List.cons.injEq, List.nil_append, and_true, true_and] at he
    have := congrArg UInt8.toNat he
    rw [octet_toNat (by omega), octet_toNat (by omega)] at this
    omega

/-- The upper half of the sixteenth octet does not matter. -/
theorem decodeHeader_low (a ies rest : List UInt8) (x y : UInt8) (ha : a.length = 15) (hb : bitAt a 0 = true)
    (hxy : x.toNat % 16 = y.toNat % 16) :
    decodeHeader (some (a ++ x :: ies ++ rest)) (a ++ x :: ies).length =
      decodeHeader (some (a ++ y :: ies ++ rest)) (a ++ y :: ies).length := by
  rw [decodeHeader_form, decodeHeader_form]
  have hb' : ∀ z i, i < 15 → (a ++ z :: ies)[i]? = a[i]? := fun z i hi => by
    rw [List.getElem?_append_left (by omega)]
  have hbit : ∀ z i, i < 8 → bitAt (a ++ z :: ies) i = bitAt a i := fun z i hi => by
    simp only [bitAt, hb' z (i / 8) (by omega)]
  have h15 : ∀ z, (a ++ z :: ies)[15]? = some z := fun z => by
    rw [List.getElem?_append_right (by omega), ha]; rfl
  have hah : ∀ z, announcedHeader (a ++ z :: ies) = 16 := fun z => by
    simp only [announcedHeader, hbit z 0 (by omega), hb, if_true]
  have htk : ∀ z i n, i + n ≤ 15 → ((a ++ z :: ies).drop i).take n = (a.drop i).take n := fun z i n hi => by
    rw [List.drop_append_of_le_length (by omega), List.take_append_of_le_length (by simp; omega)]
  have hal : ∀ z, announcedLength (a ++ z :: ies) = loadBE ((a.drop 2).take 2) + 4 := fun z => by
    simp only [announcedLength, htk z 2 2 (by omega)]
  have hdr : ∀ z, (a ++ z :: ies).drop 16 = ies := fun z => by
    rw [List.drop_append, ha, List.drop_eq_nil_of_le (by omega)]; rfl
  have hlen : ∀ z, (a ++ z :: ies).length = 16 + ies.length := fun z => by
    simp only [List.length_append, List.length_cons, ha]; omega
  simp only [hah, hal, hbit _ 0 (by omega), hbit _ 1 (by omega), hb' _ 0 (by omega), hb' _ 1 (by omega), h15,
    htk _ 4 8 (by omega), htk _ (16 - 4) 3 (by omega), hdr, hlen, Option.getD_some, hxy]

/-- C80, the other direction: the priority of a message that is laid out as in the standard is never seen. -/
theorem C80_priority_ignored (h : Hdr) (hg : GoodHdr h) (fo : Bool) (ies rest : List UInt8)
    (hl : (standardOctets fo h ies).length ≤ 65539) :
    ∃ d, decodeHeader (some (standardOctets fo h ies ++ rest)) (standardOctets fo h ies).length = .ok d ∧
      d.h = { h with prio := 0 } := by
  have hg0 : GoodHdr { h with prio := 0 } :=
    ⟨hg.version, hg.type, hg.seq, by
      show if h.prioPresent then (0 : Nat) < 16 else (0 : Nat) = 0
      split <;> omega, hg.seid, hg.prioNeedsSeid⟩
  have hl0 : (msgOctets fo { h with prio := 0 } ies).length = (standardOctets fo h ies).length := by
    simp only [standardOctets, msgOctets, bodyOctets, List.length_append, be_length, List.length_cons, List.length_nil]
    omega
  have hb0 : (bodyOctets { h with prio := 0 } ies).length ≤ 65535 := by
    have : (msgOctets fo { h with prio := 0 } ies).length = 4 + (bodyOctets { h with prio := 0 } ies).length := by
      simp only [msgOctets, List.length_append, be_length, List.length_cons, List.length_nil]
    omega
  have hd := decodeHeader_msgOctets fo { h with prio := 0 } ies rest _ (good_carried hg0) hb0 (Nat.le_refl _)
  rw [carried_of_good hg0] at hd
  refine ⟨_, Eq.trans ?_ hd, rfl⟩
  by_cases hpp : h.prioPresent = true
  case neg =>
    have hp : h.prio = 0 := by simpa [hpp] using hg.prio
    have e : ({ h with prio := 0 } : Hdr) = h := by rw [← hp]
    rw [e, msgOctets_standard hp]
  case pos =>
    have hs := hg.prioNeedsSeid hpp
    have hlt := hg.prio
    rw [hpp, if_pos rfl] at hlt
    have e : (bodyOctets { h with prio := 0 } ies).length = (part h.seidPresent (be 8 h.seid)).length + 4 + ies.length := by
      simp only [bodyOctets, List.length_append, be_length, List.length_cons, List.length_nil]
    have e1 : standardOctets fo h ies =
        ([octet (32 * h.version + bit 2 fo + bit 1 h.prioPresent + bit 0 h.seidPresent), octet h.type]
          ++ be 2 ((part h.seidPresent (be 8 h.seid)).length + 4 + ies.length)
          ++ part h.seidPresent (be 8 h.seid) ++ be 3 h.seq) ++ octet (16 * h.prio) :: ies := by
      simp only [standardOctets, hpp, if_true, List.append_assoc, List.cons_append, List.nil_append]
    have e2 : msgOctets fo { h with prio := 0 } ies =
        ([octet (32 * h.version + bit 2 fo + bit 1 h.prioPresent + bit 0 h.seidPresent), octet h.type]
          ++ be 2 ((part h.seidPresent (be 8 h.seid)).length + 4 + ies.length)
          ++ part h.seidPresent (be 8 h.seid) ++ be 3 h.seq) ++ octet 0 :: ies := by
      simp only [msgOctets, e]
      simp only [bodyOctets, List.append_assoc, List.cons_append, List.nil_append]
    rw [e1, e2]
    refine decodeHeader_low _ _ _ _ _ ?_ ?_ ?_
    · simp only [hs, part, if_true, List.length_append, be_length, List.length_cons, List.length_nil]
    · have f := (flags_facts h.version hg.version fo h.prioPresent h.seidPresent).1
      rw [flag_1, hs] at f
      simp only [bitAt, hs, List.cons_append, List.append_assoc]
      simpa using f
    · rw [octet_toNat (by omega), octet_toNat (by omega)]; omega

/-- The hypotheses are met by a message of priority 5. -/
example : GoodHdr exPrio ∧ (standardOctets false exPrio []).length ≤ 65539 ∧ exPrio.prio = 5 ∧
    message exPrio.type = some (layout []) ∧ GoodStruct (layout []) [] :=
  ⟨⟨by decide, by decide, by decide, by decide, by decide, by decide⟩, by decide, rfl, rfl, trivial⟩

end Verif.Props
