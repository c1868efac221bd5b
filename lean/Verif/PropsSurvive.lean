/-
Which messages survive encoding and decoding: exactly those that the format can carry (C107).
-/
import Verif.SurviveLemmas

namespace Verif.Props
open Verif Spec

/-- A decoded struct is made of values that decoding can give. -/
theorem Fields.decodes_to {f : Fields} (hw : f.Wf) (hr : f.Room) {o rest : List UInt8} {s : Struct IeVal}
    (h : gtlvsDecode { cfg := t16l16v, mem := o ++ rest, srcLen := o.length } false (some f.codings) = .ok s) :
    StructOf Decodable f s := by
  obtain ⟨k1, k2⟩ := decoded_members hw.nodup' hr.cap _ _ (by simp) s h
  exact Fields.decoded f s hw hr k1 k2

/-- The octets of a struct are decoded to this struct exactly if all its values can be carried. -/
theorem Fields.back {f : Fields} (hw : f.Wf ∧ f.tags.length ≤ 4096) (hr : f.Room) {s : Struct IeVal} (hg : StructOf Decodable f s)
    (hl : (structOctets f s).length ≤ 65535) {rest : List UInt8} (hz : 0 ∈ rest) :
    gtlvsDecode { cfg := t16l16v, mem := structOctets f s ++ rest, srcLen := (structOctets f s).length } false (some f.codings) = .ok s ↔
      StructOf Carried f s := by
  have hfit := (Verif.Fields.encodesTo f s hw.1 hg hl).2
  rw [Fields.means_octets f hw hr _ rest hz s, ← Verif.Fields.survives f s (ieList f s) hw.1 hg hl (by
    simpa using dealt f s hw.1 [] (by simp))]
  constructor
  · rintro ⟨ies, h1, h2, h3⟩
    rw [structOctets_eq] at h2
    rw [octets16_inj _ _ hfit h1 h2]
    exact h3
  · intro h
    exact ⟨_, hfit, structOctets_eq f s, h⟩

/-- C107: the IEs of a message, encoded into any buffer with enough room and decoded again, are what they were exactly if the
struct fits the layout of the message type and the format can carry each of its values - whatever the struct is, at any depth of
grouped IEs. -/
theorem C107_ies (t : Nat) (f : Fields) (hf : message t = some f) (s : Struct IeVal) (cap : Nat)
    (hl : (structOctets f s).length ≤ 65535) (hc : (structOctets f s).length ≤ cap) (rest : List UInt8) (hz : 0 ∈ rest) :
    (∃ b, gtlvsEncode t16l16v s ⟨cap, []⟩ (some f.codings) = .ok b ∧
      gtlvsDecode { cfg := t16l16v, mem := b.data ++ rest, srcLen := b.data.length } false (some f.codings) = .ok s) ↔
    StructOf Carried f s := by
  have hw := message_wf hf
  have hr := msgFields_room ((msgFields_eq t).trans hf)
  have key : ∀ hg : StructOf Decodable f s, gtlvsEncode t16l16v s ⟨cap, []⟩ (some f.codings) = .ok ⟨cap, structOctets f s⟩ := by
    intro hg
    simpa using Verif.Fields.puts f s hw.1 hg hl ⟨cap, []⟩ (by simpa using hc)
  constructor
  · rintro ⟨b, h1, h2⟩
    have hg := Fields.decodes_to hw.1 hr h2
    rw [key hg] at h1
    cases h1
    exact (Fields.back hw hr hg hl hz).1 h2
  · intro h
    have hg := structMono (fun _ hv => Spec.Carried.decodable hv) f s h
    exact ⟨_, key hg, (Fields.back hw hr hg hl hz).2 h⟩

/-- A decoded header is one that the format can carry. -/
theorem decoded_header {o rest : List UInt8} {d : DecHdr} (h : decodeHeader (some (o ++ rest)) o.length = .ok d) : GoodHdr d.h := by
  rw [decodeHeader_form] at h
  have lt : ∀ (l : List UInt8) (n : Nat), loadBE (l.take n) < 256 ^ n := by
    intro l n
    refine Nat.lt_of_lt_of_le (loadBE_lt _) (Nat.pow_le_pow_right (by omega) ?_)
    simp; omega
  split at h
  · simp at h
  split at h
  · simp at h
  split at h
  · simp at h
  rename_i hb
  simp only [Res.ok.injEq] at h
  subst h
  refine ⟨?_, ?_, ?_, ?_, ?_, ?_⟩
  · have := ((o[0]?).getD 0).toNat_lt
    simp only; omega
  · exact ((o[1]?).getD 0).toNat_lt
  · exact lt _ 3
  · simp only
    split
    · exact Nat.mod_lt _ (by decide)
    · rfl
  · simp only
    split
    · exact lt _ 8
    · rfl
  · intro h1
    cases h2 : bitAt o 0 with
    | true => rfl
    | false => exact absurd ⟨by simp [h2], h1⟩ hb

/-- C107: a message - of a supported type, that fits its length field and the buffer - is encoded, and decoded from this buffer
is what it was, exactly if its header and its IEs are such that the format can carry them. -/
theorem C107_message (buf : Buf) (h : Hdr) (f : Fields) (ies : Struct IeVal) (hf : message h.type = some f)
    (hlen : (bodyOctets h (structOctets f ies)).length ≤ 65535)
    (room : (setFollowOn buf).data.length + (msgOctets false h (structOctets f ies)).length ≤ (setFollowOn buf).cap)
    (slack : List UInt8) (hz : 0 ∈ slack) :
    (∃ buf' d, msgEncode buf h ies = .ok buf' ∧ buf'.decodeHeader slack = .ok d ∧ d.h = h ∧ decodeTlv d = .ok ies) ↔
      GoodHdr h ∧ StructOf Carried f ies := by
  have hw := message_wf hf
  have hr := msgFields_room ((msgFields_eq h.type).trans hf)
  have hbg := body_ge h (structOctets f ies)
  have enc : GoodHdr h → StructOf Decodable f ies → ∃ l3, msgEncode buf h ies = .ok
      { b := ⟨(setFollowOn buf).cap, (setFollowOn buf).data ++ msgOctets false h (structOctets f ies)⟩
        l3h := l3, l4h := some (setFollowOn buf).data.length } := by
    intro hg hs
    have hg := good_carried hg
    rw [msgOctets_length] at room
    have ha : Appends (encTlv h ies) (structOctets f ies) := by
      intro b hb
      simp only [encTlv, C66_message_definitions, hf, Option.map_some]
      exact Verif.Fields.puts f ies hw.1 hs (by omega) b hb
    rw [msgEncode_eq _ _ _ hg]
    simp only
    rw [if_pos (by omega)]
    rw [ha _ (by simp [headerOctets_length]; omega)]
    simp only [Out.bind_ok]
    rw [setMessageLength_eq _ _ h hg, if_pos hlen]
    exact ⟨_, rfl⟩
  have dec : ∀ l3, GoodHdr h → ∃ d, Buf.decodeHeader
        ⟨⟨(setFollowOn buf).cap, (setFollowOn buf).data ++ msgOctets false h (structOctets f ies)⟩, l3, some (setFollowOn buf).data.length⟩
        slack = .ok d ∧ d.h = h ∧
        (decodeTlv d = .ok ies ↔ gtlvsDecode { cfg := t16l16v, mem := structOctets f ies ++ slack, srcLen := (structOctets f ies).length }
          false (some f.codings) = .ok ies) := by
    intro l3 hg
    have := decodeHeader_msgOctets false h (structOctets f ies) slack _ (good_carried hg) hlen (Nat.le_refl _)
    refine ⟨_, by simpa [Buf.decodeHeader] using this, carried_of_good hg, ?_⟩
    simp only [decodeTlv, C66_message_definitions, Hdr.carried, hf, Option.map_some]
  constructor
  · rintro ⟨buf', d, h1, h2, h3, h4⟩
    -- the header has been decoded
    have hl4 : ∃ o, buf'.l4h = some o := by
      unfold msgEncode at h1
      exact ⟨_, (Out.buf_ok h1).2.2⟩
    obtain ⟨o, hl4⟩ := hl4
    have h2' : decodeHeader (some (buf'.b.data.drop o ++ slack)) (buf'.b.data.drop o).length = .ok d := by
      simpa [Buf.decodeHeader, hl4] using h2
    have hg : GoodHdr h := h3 ▸ decoded_header h2'
    obtain ⟨o', x, d', e1, e2, e3, e4, e5, e6, e7, e8⟩ := C20_header_round_trip buf buf' h ies (good_carried hg) h1 slack
    rw [h2] at e4
    cases e4
    obtain ⟨f', k1, k2⟩ := C67_decoded_is_well_formed d (by rw [e7, e8]; simp) ies h4
    rw [h3, hf] at k1
    cases k1
    refine ⟨hg, ?_⟩
    obtain ⟨l3, he⟩ := enc hg k2
    rw [he] at h1
    cases h1
    obtain ⟨d', p1, p2, p3⟩ := dec l3 hg
    rw [p1] at h2
    cases h2
    exact (Fields.back hw hr k2 (by omega) hz).1 (p3.1 h4)
  · rintro ⟨hg, hs⟩
    have hd := structMono (fun _ hv => Spec.Carried.decodable hv) f ies hs
    obtain ⟨l3, he⟩ := enc hg hd
    obtain ⟨d, p1, p2, p3⟩ := dec l3 hg
    exact ⟨_, d, he, p1, p2, p3.2 ((Fields.back hw hr hd (by omega) hz).2 hs)⟩

/-- Into an empty msgb of the size of a PFCP message. -/
def exEmptyMsgb : Buf := { b := ⟨2048, []⟩ }

/-- Association Release Request with a Node ID that is a name with a dot at the end: it survives. -/
example : ∃ buf' d, msgEncode exEmptyMsgb { type := 9, seq := 7 } [[.leaf (.nodeId (.fqdn [97, 46]))]] = .ok buf' ∧
    buf'.decodeHeader [0] = .ok d ∧ d.h = { type := 9, seq := 7 } ∧ decodeTlv d = .ok [[.leaf (.nodeId (.fqdn [97, 46]))]] := by
  refine (C107_message exEmptyMsgb { type := 9, seq := 7 } _ _ rfl (by decide) (by decide) [0] (by simp)).2 ⟨?_, ?_⟩
  · exact ⟨by decide, by decide, by decide, rfl, rfl, nofun⟩
  · refine ⟨⟨by decide, by decide⟩, ?_, trivial⟩
    intro v hv
    cases List.mem_singleton.1 hv
    exact ⟨rfl, by decide, by decide, by decide⟩

/-- With an IPv6 address as IPv4 Node ID, or with a sequence number of more than 24 bits, it does not. -/
example (buf' : Buf) (d : DecHdr) (h1 : msgEncode exEmptyMsgb { type := 9, seq := 7 } [[.leaf (.nodeId (.v4 (.inet6 1 0)))]] = .ok buf')
    (h2 : buf'.decodeHeader [0] = .ok d) (h3 : d.h = { type := 9, seq := 7 }) :
    decodeTlv d ≠ .ok [[.leaf (.nodeId (.v4 (.inet6 1 0)))]] := by
  intro h4
  obtain ⟨-, -, h, -⟩ := (C107_message exEmptyMsgb { type := 9, seq := 7 } _ _ rfl (by decide) (by decide) [0] (by simp)).1
    ⟨buf', d, h1, h2, h3, h4⟩
  obtain ⟨-, _, _, h⟩ := h _ (List.mem_singleton.2 rfl)
  cases h

example (ies : Struct IeVal) (hies : ies = [[.leaf (.nodeId (.v4 (.inet 1 0)))]]) (buf' : Buf) (d : DecHdr)
    (h1 : msgEncode exEmptyMsgb { type := 9, seq := 2 ^ 24 + 7 } ies = .ok buf') (h2 : buf'.decodeHeader [0] = .ok d)
    (h4 : decodeTlv d = .ok ies) : d.h ≠ { type := 9, seq := 2 ^ 24 + 7 } := by
  subst hies
  intro h3
  obtain ⟨h, -⟩ := (C107_message exEmptyMsgb { type := 9, seq := 2 ^ 24 + 7 } _ _ rfl (by decide) (by decide) [0] (by simp)).1
    ⟨buf', d, h1, h2, h3, h4⟩
  exact absurd h.seq (by decide)

/-- A grouped IE: Session Establishment Request whose PDI has a Network Instance with two dots in a row. -/
def exInPdi (ni : List UInt8) : Struct IeVal :=
  [ [.leaf (.nodeId (.v4 (.inet 1 0)))], [],
    [.node [[.leaf (.u16 1)], [.leaf (.u32 255)],
      [.node [[.leaf (.sourceIface 0)], [], [.leaf (.networkInst ni)], [], [], []]], [], [.leaf (.u32 3)], []]],
    [.node [[.leaf (.u32 3)], [.leaf (.applyAction [2, 0])], []]] ]
example : ∃ buf' d, msgEncode exEmptyMsgb { type := 50, seq := 7 } (exInPdi [97, 46, 98]) = .ok buf' ∧
    buf'.decodeHeader [0] = .ok d ∧ d.h = { type := 50, seq := 7 } ∧ decodeTlv d = .ok (exInPdi [97, 46, 98]) := by
  refine (C107_message exEmptyMsgb { type := 50, seq := 7 } _ _ rfl (by decide) (by decide) [0] (by simp)).2 ⟨?_, ?_⟩
  · exact ⟨by decide, by decide, by decide, rfl, rfl, nofun⟩
  · unfold layout exInPdi
    repeat' first
      | apply And.intro
      | trivial
      | decide
      | (intro v hv; cases List.mem_singleton.mp hv)
      | (intro v hv; cases hv; done)
      | exact ⟨_, by decide, rfl⟩
      | (show _ < _; decide)
      | (show List.length _ = 2; decide)
      | (show StructOf Carried _ _)
example (buf' : Buf) (d : DecHdr) (h1 : msgEncode exEmptyMsgb { type := 50, seq := 7 } (exInPdi [97, 46, 46, 98]) = .ok buf')
    (h2 : buf'.decodeHeader [0] = .ok d) (h3 : d.h = { type := 50, seq := 7 }) :
    decodeTlv d ≠ .ok (exInPdi [97, 46, 46, 98]) := by
  intro h4
  obtain ⟨-, -, -, -, -, -, h, -⟩ := (C107_message exEmptyMsgb { type := 50, seq := 7 } _ _ rfl (by decide) (by decide) [0] (by simp)).1
    ⟨buf', d, h1, h2, h3, h4⟩
  obtain ⟨-, -, -, -, -, h, -⟩ := h _ (List.mem_singleton.2 rfl)
  obtain ⟨-, -, -, -, -, h, -⟩ := h _ (List.mem_singleton.2 rfl)
  obtain ⟨-, h⟩ := h _ (List.mem_singleton.2 rfl)
  exact absurd (h.2.2 [] (by decide)) (by simp)

end Verif.Props
