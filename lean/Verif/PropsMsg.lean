/-
Property theorems C19-C29, C66, C67: PFCP messages and bundles (src/libosmo-pfcp/pfcp_msg.c,
gen__pfcp_ies_auto.c).
-/
import Verif.HdrLemmas

namespace Verif.Props
open Verif Spec

/-! ### C66: message definitions -/

theorem msgFields_eq (type : Nat) : msgFields type = message type := by
  unfold msgFields message
  split
  case h_13 => split <;> first | rfl | simp_all
  all_goals rfl

/-- C66: the generated tables are the layouts of `Spec.message`, for every message type. -/
theorem C66_message_definitions (type : Nat) : msgCoding type = (message type).map Fields.codings := by
  rw [msgCoding, msgFields_eq]

theorem message_wf {t : Nat} {f : Fields} (h : message t = some f) : f.Wf ∧ f.tags.length ≤ 4096 :=
  msgFields_wf ((msgFields_eq t).trans h)

/-- A nested level, seen from the outside: Create PDR has its PDI's Source Interface as mandatory IE. -/
example : (message 50).map Fields.tags = some [60, 57, 1, 3] := rfl

/-! ### C19: message round trip -/

theorem encTlv_good (h : Hdr) (f : Fields) (ies : Struct IeVal) (hf : message h.type = some f)
    (hs : GoodStruct f ies) (hl : (structOctets f ies).length ≤ 65535) : Appends (encTlv h ies) (structOctets f ies) := by
  have := (Fields.roundTrip f ies (message_wf hf) hs hl).1
  intro b hb
  simp only [encTlv, C66_message_definitions, hf, Option.map_some]
  exact this b hb

theorem carried_of_good {h : Hdr} (hg : GoodHdr h) : h.carried = h := by
  cases h
  have := hg.seq
  simp only at this
  simp [Hdr.carried]; omega

theorem good_carried {h : Hdr} (hg : GoodHdr h) : GoodHdr h.carried := by rw [carried_of_good hg]; exact hg

theorem body_ge (h : Hdr) (x : List UInt8) : x.length + 4 ≤ (bodyOctets h x).length := by
  rw [bodyOctets_length]; cases h.seidPresent <;> simp [headerLen] <;> omega

/-- Encoding a good message, into any msgb with enough room. -/
theorem msgEncode_good (buf : Buf) (h : Hdr) (f : Fields) (ies : Struct IeVal) (hg : GoodHdr h.carried)
    (hf : message h.type = some f) (hs : GoodStruct f ies)
    (hlen : (bodyOctets h (structOctets f ies)).length ≤ 65535)
    (room : (setFollowOn buf).data.length + (msgOctets false h (structOctets f ies)).length ≤ (setFollowOn buf).cap) :
    ∃ l3, msgEncode buf h ies = .ok
      { b := ⟨(setFollowOn buf).cap, (setFollowOn buf).data ++ msgOctets false h (structOctets f ies)⟩
        l3h := l3, l4h := some (setFollowOn buf).data.length } ∧
      (l3 = match buf.l3h with | none => some (setFollowOn buf).data.length | some o => some o) := by
  have hbg := body_ge h (structOctets f ies)
  have ha := encTlv_good h f ies hf hs (by omega)
  rw [msgOctets_length] at room
  rw [msgEncode_eq _ _ _ hg]
  simp only
  rw [if_pos (by omega)]
  rw [ha _ (by simp [headerOctets_length]; omega)]
  simp only [Out.bind_ok]
  rw [setMessageLength_eq _ _ h hg, if_pos hlen]
  exact ⟨_, rfl, rfl⟩

theorem decodeTlv_good (h : Hdr) (f : Fields) (ies : Struct IeVal)
    (hf : message h.type = some f) (hs : GoodStruct f ies) (hl : (structOctets f ies).length ≤ 65535)
    (d : DecHdr) (hd : d.h.type = h.type) (rest : List UInt8) (hm : d.tlvMem = structOctets f ies ++ rest)
    (hn : d.tlvLen = (structOctets f ies).length) (hr : HasRuleNames f ies → 0 ∈ rest) :
    decodeTlv d = .ok ies := by
  simp only [decodeTlv, hm, hn, hd, C66_message_definitions, hf, Option.map_some]
  exact (Fields.roundTrip f ies (message_wf hf) hs hl).2 rest hr

/-- C19: for every supported message type and every struct that fits its layout, encoding succeeds,
gives the octets of `Spec.msgOctets`, and decoding them - with any memory behind, containing a NUL if
there is an Activate Predefined Rules IE (see C36) - gives the same header and the same struct. -/
theorem C19_message_round_trip (h : Hdr) (f : Fields) (ies : Struct IeVal) (cap : Nat)
    (hf : message h.type = some f) (hg : GoodHdr h) (hs : GoodStruct f ies)
    (hlen : (bodyOctets h (structOctets f ies)).length ≤ 65535)
    (room : (msgOctets false h (structOctets f ies)).length ≤ cap) :
    ∃ buf, msgEncode { b := ⟨cap, []⟩ } h ies = .ok buf ∧
      buf.b.data = msgOctets false h (structOctets f ies) ∧
      ∀ slack, (HasRuleNames f ies → 0 ∈ slack) →
        ∃ d, buf.decodeHeader slack = .ok d ∧ d.h = h ∧ d.msgLen = buf.b.data.length ∧ decodeTlv d = .ok ies := by
  have hbg := body_ge h (structOctets f ies)
  obtain ⟨l3, h1, _⟩ := msgEncode_good { b := ⟨cap, []⟩ } h f ies (good_carried hg) hf hs hlen (by simpa [setFollowOn] using room)
  refine ⟨_, h1, by simp [setFollowOn], ?_⟩
  intro slack hsl
  have := decodeHeader_msgOctets false h (structOctets f ies) slack _ (good_carried hg) hlen (Nat.le_refl _)
  refine ⟨_, by simpa [Buf.decodeHeader, setFollowOn] using this, carried_of_good hg, by simp [setFollowOn], ?_⟩
  exact decodeTlv_good h f ies hf hs (by omega) _ (by simp [Hdr.carried]) slack rfl rfl hsl

/-- A Session Establishment Response with SEID, priority, F-SEID and two Created PDRs. -/
def exHdr : Hdr := { type := 51, seq := 0x010203, seidPresent := true, seid := 77, prioPresent := true, prio := 9 }
def exIes : Struct IeVal :=
  [ [.leaf (.nodeId (.v4 (.inet 0x7f000001 0)))], [.leaf (.cause 1)], [],
    [.leaf (.fSeid { seid := 5, ip := { v6Present := true, v6 := .inet6 1 0 } })],
    [ .node [[.leaf (.u16 1)], [.leaf (.fTeid (.fixed 9 { v4Present := true, v4 := .inet 0x7f000002 0 }))]],
      .node [[.leaf (.u16 2)], []] ] ]

example : GoodHdr exHdr := ⟨by decide, by decide, by decide, by decide, by decide, by decide⟩
theorem exIes_good : ∃ f, message exHdr.type = some f ∧ GoodStruct f exIes ∧
    (bodyOctets exHdr (structOctets f exIes)).length ≤ 65535 ∧ ¬ HasRuleNames f exIes := by
  refine ⟨_, rfl, ?_, by decide, ?_⟩
  · unfold layout exIes
    repeat' first
      | apply And.intro
      | trivial
      | decide
      | (intro v hv; simp only [List.mem_cons, List.not_mem_nil, or_false] at hv; rcases hv with rfl | rfl)
      | (intro v hv; cases List.mem_singleton.mp hv)
      | (intro v hv; cases hv; done)
      | exact ⟨_, by decide, rfl⟩
      | (show _ < _; decide)
      | (show StructOf InRange _ _)
  · intro h
    rcases h with ⟨v, hv, h⟩ | ⟨v, hv, h⟩ | ⟨v, hv, h⟩ | ⟨v, hv, h⟩ | ⟨v, hv, h⟩ | h
    · cases List.mem_singleton.mp hv; exact absurd (show IeKind.nodeId = .apr from h) (by decide)
    · cases List.mem_singleton.mp hv; exact absurd (show IeKind.cause = .apr from h) (by decide)
    · cases hv
    · cases List.mem_singleton.mp hv; exact absurd (show IeKind.fSeid = .apr from h) (by decide)
    · simp only [List.mem_cons, List.not_mem_nil, or_false] at hv
      rcases hv with rfl | rfl
      · rcases h with ⟨v, hv, h⟩ | ⟨v, hv, h⟩ | h
        · cases List.mem_singleton.mp hv; exact absurd (show IeKind.u16 = .apr from h) (by decide)
        · cases List.mem_singleton.mp hv; exact absurd (show IeKind.fTeid = .apr from h) (by decide)
        · exact h
      · rcases h with ⟨v, hv, h⟩ | ⟨v, hv, h⟩ | h
        · cases List.mem_singleton.mp hv; exact absurd (show IeKind.u16 = .apr from h) (by decide)
        · cases hv
        · exact h
    · exact h

/-! ### C20: header round trip -/

/-- C20: whenever encoding a message succeeds - whatever its IEs -, the encoded message is
`Spec.msgOctets` (in particular, its length field is the number of octets that follow), and
osmo_pfcp_msg_decode_header() on the msgb yields version, type, flags, SEID and priority again, the
sequence number modulo 2^24, and the length of the message. -/
theorem C20_header_round_trip (buf buf' : Buf) (h : Hdr) (ies : Struct IeVal)
    (hg : GoodHdr { h with seq := h.seq % 2 ^ 24 }) (he : msgEncode buf h ies = .ok buf') (slack : List UInt8) :
    ∃ o x d, buf'.l4h = some o ∧ buf'.b.data.drop o = msgOctets false h x ∧ (bodyOctets h x).length ≤ 65535 ∧
      buf'.decodeHeader slack = .ok d ∧ d.h = { h with seq := h.seq % 2 ^ 24 } ∧
      d.msgLen = (msgOctets false h x).length ∧ d.tlvMem = x ++ slack ∧ d.tlvLen = x.length := by
  obtain ⟨x, h1, h2, h3, _⟩ := msgEncode_ok_inv hg he
  have hdrop : buf'.b.data.drop (setFollowOn buf).data.length = msgOctets false h x := by rw [h1]; simp
  have := decodeHeader_msgOctets false h x slack _ hg h2 (Nat.le_refl _)
  have hd : buf'.decodeHeader slack = decodeHeader (some (msgOctets false h x ++ slack)) (msgOctets false h x).length := by
    simp only [Buf.decodeHeader, h3, hdrop]
    rw [h1]
    simp
  rw [this] at hd
  exact ⟨_, x, _, h3, hdrop, h2, hd, rfl, rfl, rfl, rfl⟩

example : GoodHdr { exHdr with seq := 0xff010203 % 2 ^ 24 } ∧
    ∃ buf', msgEncode { b := ⟨200, []⟩ } { exHdr with seq := 0xff010203 } exIes = .ok buf' := by
  refine ⟨⟨by decide, by decide, by decide, by decide, by decide, by decide⟩, ?_⟩
  obtain ⟨f, h1, h2, h3, _⟩ := exIes_good
  exact ⟨_, (msgEncode_good { b := ⟨200, []⟩ } { exHdr with seq := 0xff010203 } f exIes
    ⟨by decide, by decide, by decide, by decide, by decide, by decide⟩ h1 h2
    (by cases h1; decide) (by cases h1; decide)).choose_spec.1⟩

/-! ### C21: truncated headers -/

theorem decodeHeader_form (o rest : List UInt8) :
    decodeHeader (some (o ++ rest)) o.length =
      if o.length < 4 ∨ o.length < announcedHeader o then .err .EINVAL
      else if o.length < announcedLength o then .err .EMSGSIZE
      else if ¬ bitAt o 0 ∧ bitAt o 1 then .err .EINVAL
      else .ok
        { h := { version := ((o[0]?).getD 0).toNat / 32, type := ((o[1]?).getD 0).toNat
                 seq := loadBE (((o.drop (announcedHeader o - 4))).take 3)
                 prioPresent := bitAt o 1
                 prio := if bitAt o 1 then ((o[15]?).getD 0).toNat % 16 else 0
                 seidPresent := bitAt o 0
                 seid := if bitAt o 0 then loadBE ((o.drop 4).take 8) else 0 }
          isResponse := isResponseType ((o[1]?).getD 0).toNat
          causeAt := (membOfsOf ((o[1]?).getD 0).toNat).1
          nodeIdAt := (membOfsOf ((o[1]?).getD 0).toNat).2
          tlvMem := o.drop (announcedHeader o) ++ rest
          tlvLen := (announcedLength o + 2 ^ 32 - announcedHeader o) % 2 ^ 32
          msgLen := announcedLength o } := by
  unfold decodeHeader
  simp only
  by_cases h4 : o.length < 4
  · rw [if_pos (show o.length < 4 ∨ o.length < announcedHeader o from Or.inl h4)]
    by_cases h0 : o.length = 0
    · rw [if_pos h0]
    · rw [if_neg h0, if_pos h4]
  rw [if_neg (show ¬ o.length = 0 by omega), if_neg h4]
  have hrd : ∀ i, i < o.length → rd (o ++ rest) i = .ok ((o[i]?).getD 0) := by
    intro i hi
    simp [rd, List.getElem?_append_left hi, hi]
  have hrdN : ∀ i n, i + n ≤ o.length → rdN (o ++ rest) i n = .ok ((o.drop i).take n) := by
    intro i n hi
    rw [rdN_ok (by simp; omega)]
    congr 1
    rw [List.drop_append_of_le_length (by omega), List.take_append_of_le_length (by simp; omega)]
  rw [hrd 0 (by omega)]
  simp only [Res.bind_ok']
  have e0 : flag ((o[0]?).getD 0).toNat 1 = bitAt o 0 := by
    rw [flag_1]
    have : o[0]? = some o[0] := by simp
    simp [bitAt, this]
  have e1 : flag ((o[0]?).getD 0).toNat 2 = bitAt o 1 := by
    rw [flag_2]
    have : o[0]? = some o[0] := by simp
    simp [bitAt, this]
  rw [e0, e1]
  have eh : headerLen (bitAt o 0) = announcedHeader o := rfl
  rw [eh]
  by_cases hh : o.length < announcedHeader o
  · rw [if_pos hh, if_pos (.inr hh)]
  rw [if_neg hh, if_neg (by simp [h4, hh])]
  rw [hrd 1 (by omega), hrdN 2 2 (by omega)]
  simp only [Res.bind_ok']
  have el : loadBE ((o.drop 2).take 2) + 4 = announcedLength o := rfl
  rw [el]
  by_cases hl : o.length < announcedLength o
  · rw [if_pos hl, if_pos hl]
  rw [if_neg (by omega), if_neg hl]
  have et : (o ++ rest).drop (announcedHeader o) = o.drop (announcedHeader o) ++ rest := by
    rw [List.drop_append_of_le_length (by omega)]
  cases hs : bitAt o 0
  · have ha : announcedHeader o = 8 := by simp [announcedHeader, hs]
    rw [hrdN 4 3 (by omega)]
    rw [ha] at et
    cases hp : bitAt o 1
    · simp [et, ha]
    · simp
  · have ha : announcedHeader o = 16 := by simp [announcedHeader, hs]
    rw [hrdN 4 8 (by omega), hrdN 12 3 (by omega), hrd 15 (by omega)]
    rw [ha] at et
    simp [et, ha]

/-- C21: a datagram `o` that is shorter than 4 octets, shorter than its header, or shorter than its own
length field, is rejected, whatever is in memory behind it. -/
theorem C21_truncated_rejected (o rest : List UInt8)
    (h : o.length < 4 ∨ o.length < announcedHeader o ∨ o.length < announcedLength o) :
    ∃ e, decodeHeader (some (o ++ rest)) o.length = .err e := by
  rw [decodeHeader_form]
  by_cases h1 : o.length < 4 ∨ o.length < announcedHeader o
  · rw [if_pos h1]; exact ⟨_, rfl⟩
  · rw [if_neg h1, if_pos (by omega)]; exact ⟨_, rfl⟩

/-- C21: header decoding does not read beyond the data - it returns even if the memory ends there -,
its result does not depend on what is behind, and the length that it returns does not exceed the
available data. -/
theorem C21_in_bounds (o : List UInt8) :
    (decodeHeader (some o) o.length).Returns ∧
    (∀ rest e, decodeHeader (some o) o.length = .err e → decodeHeader (some (o ++ rest)) o.length = .err e) ∧
    (∀ d, decodeHeader (some o) o.length = .ok d → d.msgLen ≤ o.length ∧ d.msgLen = announcedLength o ∧
      ∀ rest, decodeHeader (some (o ++ rest)) o.length = .ok { d with tlvMem := d.tlvMem ++ rest }) := by
  have h0 := decodeHeader_form o []
  rw [List.append_nil] at h0
  rw [h0]
  refine ⟨?_, ?_, ?_⟩
  · repeat' split
    all_goals trivial
  · intro rest e he
    rw [decodeHeader_form]
    split at he
    · rw [if_pos ‹_›]; exact he
    · rw [if_neg ‹_›]
      split at he
      · rw [if_pos ‹_›]; exact he
      · rw [if_neg ‹_›]
        split at he
        · rw [if_pos ‹_›]; exact he
        · simp at he
  · intro d hd
    split at hd
    · simp at hd
    · split at hd
      · simp at hd
      · split at hd
        · simp at hd
        · simp only [Res.ok.injEq] at hd
          subst hd
          refine ⟨by simp only; omega, rfl, ?_⟩
          intro rest
          rw [decodeHeader_form, if_neg ‹_›, if_neg ‹_›, if_neg ‹_›]
          simp

example : announcedHeader [0x21, 50, 0, 12, 0, 0, 0, 0, 0, 0, 0, 77, 1, 2, 3, 0x90] = 16 ∧
    announcedLength [0x21, 50, 0, 12, 0, 0, 0, 0, 0, 0, 0, 77, 1, 2, 3, 0x90] = 16 := by decide
example : ∃ d, decodeHeader (some [0x21, 50, 0, 12, 0, 0, 0, 0, 0, 0, 0, 77, 1, 2, 3, 0x90]) 16 = .ok d ∧
    d.h.seid = 77 ∧ d.h.seq = 0x010203 :=
  ⟨_, (decodeHeader_form [0x21, 50, 0, 12, 0, 0, 0, 0, 0, 0, 0, 77, 1, 2, 3, 0x90] []).trans
    (by rw [if_neg (by decide), if_neg (by decide), if_neg (by decide)]), by decide, by decide⟩

/-! ### C22: the TLV window lies within the message -/

/-- A TLV window on memory that ends before it. -/
theorem window_past_memory (n : Nat) (hn : 4 ≤ n) (codings : List (Coding IeVal)) :
    gtlvsDecode { cfg := t16l16v, mem := [], srcLen := n } false (some codings) = .ub := by
  have h1 : loadNext { cfg := t16l16v, mem := [], srcLen := n } = .ub := by
    unfold loadNext nextTlValid
    simp only [Nat.not_lt_zero, if_false, Nat.sub_zero, gt_iff_lt]
    rw [if_neg (by simp [t16l16v]; omega)]
    simp only
    rw [if_neg (by omega)]
    rfl
  simp only [gtlvsDecode, Bool.false_eq_true, if_false, decodeUnordered, decodeUnorderedLoop, Load.start, h1]
  rfl

/-- C22 is false of the code: a message whose length field is smaller than its header is accepted,
and the length of the TLV window wraps around (`message_length - header_len` is unsigned). -/
theorem C22_counterexample :
    ∃ d, decodeHeader (some [0x20, 1, 0, 0, 0, 0, 1, 0]) 8 = .ok d ∧ d.msgLen = 4 ∧ d.tlvLen = 2 ^ 32 - 4 ∧
      decodeTlv d = .ub := by
  have h := decodeHeader_form [0x20, 1, 0, 0, 0, 0, 1, 0] []
  simp only [List.append_nil] at h
  refine ⟨_, h.trans (by rw [if_neg (by decide), if_neg (by decide), if_neg (by decide)]), by decide, by decide, ?_⟩
  rw [decodeTlv, C66_message_definitions]
  exact window_past_memory _ (by decide) _

/-- C22, for messages whose length field covers the header: header and window make up the message, and
the window's octets are those of the datagram behind the header. -/
theorem C22_window_partial (o rest : List UInt8) (d : DecHdr)
    (h : decodeHeader (some (o ++ rest)) o.length = .ok d) (hlen : announcedHeader o ≤ announcedLength o) :
    announcedHeader o + d.tlvLen = d.msgLen ∧ d.msgLen ≤ o.length ∧
      d.tlvMem = o.drop (announcedHeader o) ++ rest := by
  rw [decodeHeader_form] at h
  split at h
  · simp at h
  · split at h
    · simp at h
    · split at h
      · simp at h
      · simp only [Res.ok.injEq] at h
        subst h
        have : announcedLength o < 2 ^ 32 := by
          have := loadBE_lt ((o.drop 2).take 2)
          have h2 : ((o.drop 2).take 2).length ≤ 2 := by simp; omega
          have h3 : 256 ^ ((o.drop 2).take 2).length ≤ 256 ^ 2 := Nat.pow_le_pow_right (by omega) h2
          unfold announcedLength; omega
        simp only
        have e : announcedLength o + 2 ^ 32 - announcedHeader o = (announcedLength o - announcedHeader o) + 2 ^ 32 := by omega
        rw [e, Nat.add_mod_right, Nat.mod_eq_of_lt (by omega)]
        exact ⟨by omega, by omega, trivial⟩

example : announcedHeader [0x20, 2, 0, 12, 0, 0, 1, 0, 0, 96, 0, 4, 1, 2, 3, 4] ≤
    announcedLength [0x20, 2, 0, 12, 0, 0, 1, 0, 0, 96, 0, 4, 1, 2, 3, 4] ∧
    ∃ d, decodeHeader (some [0x20, 2, 0, 12, 0, 0, 1, 0, 0, 96, 0, 4, 1, 2, 3, 4]) 16 = .ok d ∧ d.tlvLen = 8 :=
  ⟨by decide, _, (decodeHeader_form [0x20, 2, 0, 12, 0, 0, 1, 0, 0, 96, 0, 4, 1, 2, 3, 4] []).trans
    (by rw [if_neg (by decide), if_neg (by decide), if_neg (by decide)]), by decide⟩

/-- C22, C36: decoding the IEs of such a message never reads outside the memory, aborts or loops,
whatever the datagram, if a zero octet is in memory behind it. -/
theorem C22_decode_tlv_returns_partial (o rest : List UInt8) (d : DecHdr)
    (h : decodeHeader (some (o ++ rest)) o.length = .ok d) (hlen : announcedHeader o ≤ announcedLength o)
    (hz : 0 ∈ rest) : (decodeTlv d).Returns := by
  obtain ⟨h1, h2, h3⟩ := C22_window_partial o rest d h hlen
  have hle : d.tlvLen ≤ (o.drop (announcedHeader o)).length := by simp; omega
  have e : d.tlvMem = (o.drop (announcedHeader o)).take d.tlvLen ++ ((o.drop (announcedHeader o)).drop d.tlvLen ++ rest) := by
    rw [h3, ← List.append_assoc, List.take_append_drop]
  unfold decodeTlv
  rw [C66_message_definitions]
  cases message d.h.type with
  | none => trivial
  | some f =>
    simp only [Option.map_some, gtlvsDecode, Bool.false_eq_true, if_false]
    have := decodeUnordered_returnsWhen t16l16v_lawful f.codings (F := fun r => (0 : UInt8) ∈ r)
      (fun x r h => List.mem_append_right x h) (fun c hc => (f.localWhen c hc).2)
      ((o.drop (announcedHeader o)).take d.tlvLen) ((o.drop (announcedHeader o)).drop d.tlvLen ++ rest)
      (List.mem_append_right _ hz)
    rw [← e] at this
    rwa [List.length_take, Nat.min_eq_left hle] at this

/-! ### C23: priority requires SEID -/

/-- C23: encoding a message with priority but without SEID fails with -EINVAL. -/
theorem C23_encode_priority_needs_seid (buf : Buf) (h : Hdr) (ies : Struct IeVal) (hp : h.prioPresent = true)
    (hs : h.seidPresent = false) (room : buf.b.data.length + 8 ≤ buf.b.cap) :
    ∃ buf', msgEncode buf h ies = .err .EINVAL buf' := by
  have hd : (setFollowOn buf).data.length = buf.b.data.length ∧ (setFollowOn buf).cap = buf.b.cap := by
    unfold setFollowOn
    split
    · exact ⟨rfl, rfl⟩
    · split
      · simp
      · exact ⟨rfl, rfl⟩
  unfold msgEncode
  simp only [encHeader, Msgb.put, headerOctets_length, hs, headerLen, Bool.false_eq_true, if_false, not_false_eq_true, hp, and_self, if_true]
  rw [if_pos (by omega)]
  exact ⟨_, rfl⟩

/-- C23: a datagram with the MP flag but without the S flag is rejected. -/
theorem C23_decode_priority_needs_seid (o rest : List UInt8) (hp : bitAt o 1 = true) (hs : bitAt o 0 = false) :
    ∃ e, decodeHeader (some (o ++ rest)) o.length = .err e := by
  rw [decodeHeader_form]
  split
  · exact ⟨_, rfl⟩
  · split
    · exact ⟨_, rfl⟩
    · rw [if_pos (by simp [hp, hs])]; exact ⟨_, rfl⟩

example : bitAt [0x22, 1, 0, 4, 0, 0, 1, 0] 1 = true ∧ bitAt [0x22, 1, 0, 4, 0, 0, 1, 0] 0 = false := by decide

/-! ### C27: unsupported message types -/

/-- C27: encoding a message of a type without definition fails with -ENOTSUP (if there is room for the
header at all, and no priority without SEID). -/
theorem C27_encode_unsupported (buf : Buf) (h : Hdr) (ies : Struct IeVal) (hm : message h.type = none)
    (hp : h.prioPresent = true → h.seidPresent = true) (room : buf.b.data.length + 16 ≤ buf.b.cap) :
    ∃ buf', msgEncode buf h ies = .err .ENOTSUP buf' := by
  have hd : (setFollowOn buf).data.length = buf.b.data.length ∧ (setFollowOn buf).cap = buf.b.cap := by
    unfold setFollowOn
    split
    · exact ⟨rfl, rfl⟩
    · split
      · simp
      · exact ⟨rfl, rfl⟩
  have hl : headerLen h.seidPresent ≤ 16 := by cases h.seidPresent <;> simp [headerLen]
  unfold msgEncode
  simp only [encHeader, Msgb.put, headerOctets_length]
  rw [if_pos (by omega)]
  simp only [Out.bind_ok]
  rw [if_neg (by rintro ⟨a, b⟩; exact a (hp b))]
  simp only [Out.bind_ok, encTlv, C66_message_definitions, hm, Option.map_none, gtlvsEncode]
  exact ⟨_, rfl⟩

/-- C27: decoding the IEs of a message of a type without definition fails with -ENOTSUP. -/
theorem C27_decode_unsupported (d : DecHdr) (hm : message d.h.type = none) : decodeTlv d = .err .ENOTSUP := by
  simp [decodeTlv, C66_message_definitions, hm, gtlvsDecode]

example : message 56 = none ∧ message 3 = none ∧ message 200 = none := by decide

/-! ### C28: the length field never wraps -/

/-- C28: if encoding succeeds, what was appended is `Spec.msgOctets` of some IE octets, and the number
of octets behind the first four - which is what the length field says - is at most 65535. -/
theorem C28_length_is_exact (buf buf' : Buf) (h : Hdr) (ies : Struct IeVal)
    (hg : GoodHdr { h with seq := h.seq % 2 ^ 24 }) (he : msgEncode buf h ies = .ok buf') :
    ∃ o x, buf'.l4h = some o ∧ buf'.b.data.drop o = msgOctets false h x ∧
      o + 4 + (bodyOctets h x).length = buf'.b.data.length ∧ (bodyOctets h x).length ≤ 65535 ∧
      announcedLength (buf'.b.data.drop o) = 4 + (bodyOctets h x).length := by
  obtain ⟨x, h1, h2, h3, _⟩ := msgEncode_ok_inv hg he
  have hdrop : buf'.b.data.drop (setFollowOn buf).data.length = msgOctets false h x := by rw [h1]; simp
  have hml := msgOctets_length false h x
  have hbl := bodyOctets_length h x
  have hhl : 8 ≤ headerLen h.seidPresent := by cases h.seidPresent <;> simp [headerLen]
  refine ⟨_, x, h3, hdrop, ?_, h2, ?_⟩
  · rw [h1]; simp only [List.length_append]; omega
  · rw [hdrop]
    simp only [announcedLength, msgOctets]
    rw [show ∀ a b : UInt8, ([a, b] ++ be 2 (bodyOctets h x).length ++ bodyOctets h x).drop 2 =
      be 2 (bodyOctets h x).length ++ bodyOctets h x from fun a b => by simp]
    rw [List.take_left' (by simp), loadBE_be_of_lt (by omega)]
    omega

/-- C28: if the IEs can be encoded but the message is longer than 65535+4 octets, encoding fails with
-EMSGSIZE. -/
theorem C28_too_long_is_emsgsize (buf : Buf) (h : Hdr) (ies : Struct IeVal) (x : List UInt8)
    (hg : GoodHdr { h with seq := h.seq % 2 ^ 24 }) (hx : Appends (fun b => gtlvsEncode t16l16v ies b (msgCoding h.type)) x)
    (room : buf.b.data.length + (msgOctets false h x).length ≤ buf.b.cap)
    (hlen : 65535 + 4 < (msgOctets false h x).length) :
    ∃ buf', msgEncode buf h ies = .err .EMSGSIZE buf' := by
  have hd : (setFollowOn buf).data.length = buf.b.data.length ∧ (setFollowOn buf).cap = buf.b.cap := by
    unfold setFollowOn
    split
    · exact ⟨rfl, rfl⟩
    · split
      · simp
      · exact ⟨rfl, rfl⟩
  have hml := msgOctets_length false h x
  have hbl := bodyOctets_length h x
  have hhl : 8 ≤ headerLen h.seidPresent := by cases h.seidPresent <;> simp [headerLen]
  rw [msgEncode_eq _ _ _ hg]
  simp only
  rw [if_pos (by omega)]
  have := hx ⟨(setFollowOn buf).cap, (setFollowOn buf).data ++ headerOctets h⟩ (by simp [headerOctets_length]; omega)
  simp only [encTlv] at this ⊢
  rw [this]
  simp only [Out.bind_ok]
  rw [setMessageLength_eq _ _ h hg, if_neg (by omega)]
  exact ⟨_, rfl⟩

/-- A message of 65540 octets, one more than the length field can say (its IEs are 65532 octets of anything). -/
example : ∃ buf, setMessageLength 0 65540 ⟨70000, List.replicate 65540 0⟩ = .err .EMSGSIZE buf := ⟨_, rfl⟩

/-! ### C29: failed encoding and the rest of the bundle -/

/-- C29 is false of the code: when encoding a second message fails, the first one has the Follow On
flag already, and the msgb keeps the octets of the second one as far as they were written. -/
theorem C29_counterexample :
    ∃ buf buf', msgEncode { b := ⟨200, []⟩ } { type := 54, seq := 1 } [] = .ok buf ∧
      buf.b.data = [0x20, 54, 0, 4, 0, 0, 1, 0] ∧
      msgEncode buf { type := 56, seq := 2 } [] = .err .ENOTSUP buf' ∧
      buf'.b.data = [0x24, 54, 0, 4, 0, 0, 1, 0, 0x20, 56, 0, 4, 0, 0, 2, 0] := by
  refine ⟨_, _, rfl, by decide, rfl, by decide⟩

/-- C29, what does hold: whatever the outcome, the octets that were in the msgb stay there, apart from
the Follow On flag of the last message (octet `l4h`); all of them if there was no message. -/
theorem C29_earlier_octets_stay_partial (buf : Buf) (h : Hdr) (ies : Struct IeVal)
    (e : Errno) (buf' : Buf) (he : msgEncode buf h ies = .err e buf') :
    (∀ i, i < buf.b.data.length → some i ≠ buf.l4h → buf'.b.data[i]? = buf.b.data[i]?) ∧
    (∀ i, i < buf.b.data.length → some i = buf.l4h →
      buf'.b.data[i]? = (buf.b.data[i]?).map fun x => x ||| 4) := by
  have hgrown : Grown (setFollowOn buf) buf'.b := by
    have hgr : Grows fun b => (encHeader h b).bind fun b => (encTlv h ies b) := by
      refine Grows.bind ?_ (encTlv_grows h ies)
      exact Grows.bind (Grows.put _) (Grows.ite _ (Grows.err _) Grows.ok)
    unfold msgEncode at he
    have h1 := hgr (setFollowOn buf)
    simp only at he
    have hassoc : ((encHeader h (setFollowOn buf)).bind fun b => (encTlv h ies b).bind fun b =>
        setMessageLength (setFollowOn buf).data.length (b.data.length - (setFollowOn buf).data.length) b) =
        ((encHeader h (setFollowOn buf)).bind fun b => encTlv h ies b).bind fun b =>
          setMessageLength (setFollowOn buf).data.length (b.data.length - (setFollowOn buf).data.length) b := by
      cases encHeader h (setFollowOn buf) <;> rfl
    rw [hassoc] at he
    simp only at h1
    cases hx : (encHeader h (setFollowOn buf)).bind fun b => encTlv h ies b with
    | ok b1 =>
      have hb1 := h1.1 b1 hx
      rw [hx] at he
      simp only [Out.bind_ok, setMessageLength] at he
      have : buf'.b = b1 := by
        by_cases c1 : b1.data.length - (setFollowOn buf).data.length < 4
        · rw [if_pos c1] at he
          simp only [Out.buf, Out.err.injEq] at he; rw [← he.2]
        · rw [if_neg c1] at he
          by_cases c2 : b1.data.length - (setFollowOn buf).data.length - 4 > 65535
          · rw [if_pos c2] at he
            simp only [Out.buf, Out.err.injEq] at he; rw [← he.2]
          · rw [if_neg c2] at he
            simp [Out.buf] at he
      rw [this]; exact hb1
    | err e' b1 =>
      have hb1 := h1.2 e' b1 hx
      rw [hx] at he
      simp only [Out.bind_err, Out.buf, Out.err.injEq] at he
      rw [← he.2]; exact hb1
    | _ => rw [hx] at he; simp [Out.buf] at he
  obtain ⟨_, ⟨x, hx⟩, _⟩ := hgrown
  rw [hx]
  have hfo : ∀ i, i < buf.b.data.length → (setFollowOn buf).data[i]? =
      if some i = buf.l4h then (buf.b.data[i]?).map fun x => x ||| 4 else buf.b.data[i]? := by
    intro i hi
    unfold setFollowOn
    cases hl : buf.l4h with
    | none => simp
    | some o =>
      simp only
      by_cases ho : o < buf.b.data.length
      · rw [if_pos ho]
        simp only [List.getElem?_modify, Option.some.injEq]
        by_cases hio : o = i
        · subst hio; simp
        · rw [if_neg (fun h => hio h.symm)]
          simp [hio]
      · rw [if_neg ho, if_neg]
        simp only [Option.some.injEq]; omega
  have hlen : (setFollowOn buf).data.length = buf.b.data.length := by
    unfold setFollowOn
    split
    · rfl
    · split <;> simp
  constructor
  · intro i hi hne
    rw [List.getElem?_append_left (by omega), hfo i hi, if_neg hne]
  · intro i hi he
    rw [List.getElem?_append_left (by omega), hfo i hi, if_pos he]

end Verif.Props
