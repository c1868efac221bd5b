/-
C99: what encoding gives when there is little room.
-/
import Verif.RoomLemmas
import Verif.PropsSize

namespace Verif.Props
open Verif Spec

/-! ### IEs -/

/-- C99, for one IE: with any room left, the encoder of a value that is in range does just this. -/
theorem C99_ie (v : IeVal) (h : InRange v) (b : Msgb) (hb : b.data.length ≤ b.cap) :
    FateIs b (ieFate v (b.cap - b.data.length)) (ieEnc v b) := ieEnc_ends v h b hb

/-- With one octet too few, a name is refused, a Node ID that is a name likewise, and an F-SEID is fatal. -/
example : ieEnc (.networkInst [97, 46, 98]) ⟨4, []⟩ = .ok ⟨4, [1, 97, 1, 98]⟩ ∧
    (∃ b, ieEnc (.networkInst [97, 46, 98]) ⟨3, []⟩ = .err .EINVAL b) ∧
    (∃ b, ieEnc (.nodeId (.fqdn [97, 46, 98])) ⟨4, []⟩ = .err .EINVAL b) ∧
    ieEnc (.nodeId (.fqdn [97, 46, 98])) ⟨0, []⟩ = .abort ∧
    ieEnc (.fSeid { seid := 1, ip := {} }) ⟨8, []⟩ = .abort :=
  ⟨by decide, ⟨_, rfl⟩, ⟨_, rfl⟩, by decide, by decide⟩

/-! ### Messages -/

theorem structFate_bound {f : Fields} {s : Struct IeVal} (hw : f.Wf) (hs : GoodStruct f s)
    (hl : (structOctets f s).length ≤ 65535) {room : Nat} {o : List UInt8} (h : structFate f s room = .done o) :
    o.length ≤ room ∧ o.length ≤ (structOctets f s).length := by
  have h1 := Fields.fate f s hw hs hl
  exact h1.bound hl room o (by simpa only [structFate, valueFate] using h)

theorem encTlv_fate {h : Hdr} {f : Fields} {ies : Struct IeVal} (hf : message h.type = some f) (hs : GoodStruct f ies)
    (b : Msgb) (hb : b.data.length ≤ b.cap) : FateIs b (structFate f ies b.tailroom) (encTlv h ies b) := by
  have hle := Fields.le_most f ies hs
  have hmm := message_most hf
  have h1 := Fields.fate f ies (message_wf hf).1 hs (by omega)
  simp only [encTlv, C66_message_definitions, hf, Option.map_some, structFate, valueFate]
  exact h1.ends (by omega) b hb

theorem setFollowOn_length (buf : Buf) : (setFollowOn buf).data.length = buf.b.data.length ∧ (setFollowOn buf).cap = buf.b.cap := by
  unfold setFollowOn
  split
  · exact ⟨rfl, rfl⟩
  · split <;> simp

theorem msgEncode_fate {h : Hdr} {f : Fields} {ies : Struct IeVal} (hf : message h.type = some f) (hg : GoodHdr h)
    (hs : GoodStruct f ies) (buf : Buf) :
    Encoded (setFollowOn buf).data h
      (if buf.b.data.length + headerLen h.seidPresent ≤ buf.b.cap then
        structFate f ies (buf.b.cap - buf.b.data.length - headerLen h.seidPresent) else .crash)
      (msgEncode buf h ies) := by
  obtain ⟨l1, l2⟩ := setFollowOn_length buf
  rw [msgEncode_eq _ _ _ (good_carried hg)]
  simp only [l1, l2]
  by_cases hc : buf.b.data.length + headerLen h.seidPresent ≤ buf.b.cap
  · rw [if_pos hc, if_pos hc]
    have hlen : ((setFollowOn buf).data ++ headerOctets h).length = buf.b.data.length + headerLen h.seidPresent := by
      rw [List.length_append, headerOctets_length, l1]
    have h1 := encTlv_fate hf hs ⟨buf.b.cap, (setFollowOn buf).data ++ headerOctets h⟩ (by simp only [hlen]; omega)
    have ht : Msgb.tailroom ⟨buf.b.cap, (setFollowOn buf).data ++ headerOctets h⟩ =
        buf.b.cap - buf.b.data.length - headerLen h.seidPresent := by
      simp only [Msgb.tailroom, hlen]; omega
    rw [ht] at h1
    generalize hw : structFate f ies (buf.b.cap - buf.b.data.length - headerLen h.seidPresent) = w at h1 ⊢
    cases w with
    | done o =>
      have h1 : encTlv h ies ⟨buf.b.cap, (setFollowOn buf).data ++ headerOctets h⟩ = .ok _ := h1
      have hle := Fields.le_most f ies hs
      have hmm := message_most hf
      have hol := (structFate_bound (message_wf hf).1 hs (by omega) hw).2
      rw [h1, Out.bind_ok]
      have hset := setMessageLength_eq (setFollowOn buf).data buf.b.cap h (good_carried hg) o
      rw [if_pos (by
        rw [bodyOctets_length]
        have : headerLen h.seidPresent ≤ 16 := by cases h.seidPresent <;> decide
        omega)] at hset
      rw [l1] at hset
      simp only
      rw [hset]
      exact ⟨_, rfl, rfl⟩
    | refused => obtain ⟨b', h1⟩ := h1; rw [h1]; exact ⟨_, rfl⟩
    | crash => have h1 : _ = Out.abort := h1; rw [h1]; rfl
  · rw [if_neg hc, if_neg hc]
    rfl

/-- C99: encoding a message whose header and IEs are in range, into an empty buffer of any size. -/
theorem C99_message {h : Hdr} {f : Fields} {ies : Struct IeVal} (cap : Nat) (hf : message h.type = some f)
    (hg : GoodHdr h) (hs : GoodStruct f ies) :
    Encoded [] h (if headerLen h.seidPresent ≤ cap then structFate f ies (cap - headerLen h.seidPresent) else .crash)
      (msgEncode { b := ⟨cap, []⟩ } h ies) := by
  have := msgEncode_fate hf hg hs { b := ⟨cap, []⟩ }
  rw [setFollowOn_none rfl] at this
  simpa using this

/-- C99: appending a message to a bundle, the same; the last message of the bundle is marked in the first place. -/
theorem C99_bundle {h h0 : Hdr} {f : Fields} {ies : Struct IeVal} {d x : List UInt8} (buf : Buf)
    (hf : message h.type = some f) (hg : GoodHdr h) (hs : GoodStruct f ies) (hg0 : GoodHdr h0)
    (hb : buf.b.data = d ++ msgOctets false h0 x) (hl : buf.l4h = some d.length) :
    Encoded (d ++ msgOctets true h0 x) h
      (if buf.b.data.length + headerLen h.seidPresent ≤ buf.b.cap then
        structFate f ies (buf.b.cap - buf.b.data.length - headerLen h.seidPresent) else .crash)
      (msgEncode buf h ies) := by
  have := msgEncode_fate hf hg hs buf
  rwa [setFollowOn_last (good_carried hg0) hb hl] at this

/-- C99: the IEs are all written, as they should be, if and only if there is room for them. -/
theorem C99_fits {t : Nat} {f : Fields} {ies : Struct IeVal} (hf : message t = some f) (hs : GoodStruct f ies)
    (room : Nat) : structFate f ies room = .done (structOctets f ies) ↔ (structOctets f ies).length ≤ room := by
  have hle := Fields.le_most f ies hs
  have hmm := message_most hf
  constructor
  · intro h
    exact (structFate_bound (message_wf hf).1 hs (by omega) h).1
  · intro h
    have h1 := (Fields.fate f ies (message_wf hf).1 hs (by omega)).ends (by omega) ⟨room, []⟩ (by simp)
    have h2 := (Fields.roundTrip f ies (message_wf hf) hs (by omega)).1 ⟨room, []⟩ (by simpa using h)
    have e : (fun b => gtlvsEncode t16l16v ies b (some f.codings)) ⟨room, []⟩ =
      gtlvsEncode t16l16v ies ⟨room, []⟩ (some f.codings) := rfl
    rw [e] at h2
    rw [h2] at h1
    simp only [structFate, valueFate]
    have e2 : Msgb.tailroom ⟨room, []⟩ = room := rfl
    rw [e2] at h1
    generalize ((levelFate room f ies {}).then fun l => Fate.done l.octets) = w at h1 ⊢
    cases w with
    | done o =>
      simp only [FateIs, Out.ok.injEq, Msgb.mk.injEq, List.nil_append, true_and] at h1
      rw [h1]
    | refused => obtain ⟨_, h1⟩ := h1; cases h1
    | crash => cases h1

/-- C99: otherwise, what is written - if anything - is at most three octets shorter than the room, and shorter than the
message. -/
theorem C99_cut {t : Nat} {f : Fields} {ies : Struct IeVal} (hf : message t = some f) (hs : GoodStruct f ies)
    {room : Nat} {o : List UInt8} (h : structFate f ies room = .done o) (hr : room < (structOctets f ies).length) :
    room ≤ o.length + 3 ∧ o.length ≤ room ∧ o.length < (structOctets f ies).length := by
  have hle := Fields.le_most f ies hs
  have hmm := message_most hf
  have hb := structFate_bound (message_wf hf).1 hs (by omega) h
  have h1 := (Fields.fate f ies (message_wf hf).1 hs (by omega)).ends (by omega) ⟨room, []⟩ (by simp)
  have e2 : Msgb.tailroom ⟨room, []⟩ = room := rfl
  simp only [structFate, valueFate] at h
  rw [e2, h] at h1
  have h1 : gtlvsEncode t16l16v ies ⟨room, []⟩ (some f.codings) = .ok ⟨room, [] ++ o⟩ := h1
  obtain ⟨k1, k2⟩ := Fields.loose f ies (message_wf hf).1 hs (by omega)
  obtain ⟨k3, k4⟩ := octets16_eq (ieList f ies) k2
  obtain ⟨-, -, g⟩ := gtlvsEncode_loose t16l16v_lawful k1 k4 (fun _ _ => dom16_zero) _ _ h1
  rw [k3, ← structOctets_eq] at g
  simp only [List.nil_append] at g
  refine ⟨?_, hb.1, by omega⟩
  by_cases hx : o.length + 4 ≤ room
  · have := g hx
    rw [this] at hb
    omega
  · omega

/-! ### Sending -/

theorem encode_fate {m : PMsg} {f : Fields} (hm : m.encoded = none) (hf : message m.h.type = some f) (hg : GoodHdr m.h)
    (hs : GoodStruct f m.ies) : match sendFate m f with
      | .done o => m.encode = .ok (msgOctets false m.h o)
      | .refused => m.encode = .err .EINVAL []
      | .crash => m.encode = .abort := by
  have h1 := C99_message allocSize hf hg hs
  rw [if_pos (by cases m.h.seidPresent <;> decide)] at h1
  change Encoded _ _ (sendFate m f) _ at h1
  unfold PMsg.encode
  rw [hm]
  dsimp only
  generalize sendFate m f = w at h1 ⊢
  cases w with
  | done o => obtain ⟨buf, h1, h2⟩ := h1; rw [h1]; simp only [h2, List.nil_append]
  | refused => obtain ⟨buf, h1⟩ := h1; rw [h1]
  | crash => have h1 : _ = Out.abort := h1; rw [h1]

/-- C99: each datagram that is sent for a message that was passed to osmo_pfcp_endpoint_tx(), by then or later, has just
the octets that were written; there is none if encoding was refused. -/
theorem C99_sent {ep : Ep} (h : Reached ep) {id n1 t1} {m : PMsg} {f : Fields} (hp : Event.passed id n1 t1 m ∈ ep.log)
    (hm : m.encoded = none) (hf : message m.h.type = some f) (hg : GoodHdr m.h) (hs : GoodStruct f m.ies) :
    ∀ x ∈ transmissions id ep.log, x.1 = m.remote ∧ ∃ o, sendFate m f = .done o ∧ x.2 = msgOctets false m.h o := by
  intro x hx
  obtain ⟨x1, x2⟩ := (C46_bounded_identical h hp).2.1 x hx
  refine ⟨x1, ?_⟩
  have h1 := encode_fate hm hf hg hs
  cases hw : sendFate m f with
  | done o =>
    rw [hw] at h1
    simp only at h1
    rw [h1] at x2
    exact ⟨o, rfl, by simpa using x2.symm⟩
  | refused => rw [hw] at h1; simp only at h1; rw [h1] at x2; cases x2
  | crash => rw [hw] at h1; simp only at h1; rw [h1] at x2; cases x2

theorem tx_eq (ep : Ep) (m : PMsg) (io : Bool) (cb : Ep → Res Ep) : ep.tx m io cb =
    (((ep.begun m).note (.passed ep.nextId ep.n1 ep.t1 (ep.outgoing m))).sendMsg .tx ep.nextId (ep.outgoing m) io).bind
      fun (ep', m', rc) =>
      match rc with
      | some e =>
        (ep'.failCb ep.nextId m' cb).bind fun ep' =>
        (ep'.releaseUses m'.ctx.uses).bind fun ep' =>
        .ok ((ep'.note (.freed ep.nextId)).note (.returned ep.nextId (some e)))
      | none =>
        (ep'.queueAdd ep.nextId m' cb).bind fun ep' => .ok (ep'.note (.returned ep.nextId none)) := by
  unfold Ep.tx Ep.begun Ep.outgoing Ep.draw
  cases hr : m.isResponse <;> simp only [Bool.false_eq_true, if_false, if_true] <;> rfl

/-- C99: passing a message whose encoding is fatal to osmo_pfcp_endpoint_tx() aborts the program. -/
theorem C99_tx_crash {ep : Ep} {m : PMsg} {f : Fields} {io : Bool} {cb : Ep → Res Ep} (hm : (ep.outgoing m).encoded = none)
    (hf : message (ep.outgoing m).h.type = some f) (hg : GoodHdr (ep.outgoing m).h)
    (hs : GoodStruct f (ep.outgoing m).ies) (hc : sendFate (ep.outgoing m) f = .crash) : ep.tx m io cb = .abort := by
  have h1 := encode_fate hm hf hg hs
  rw [hc] at h1
  simp only at h1
  rw [tx_eq, Ep.sendMsg, h1]
  rfl

/-- C99: passing a message whose encoding is refused to osmo_pfcp_endpoint_tx(): nothing is sent; the callback of a request
is called without a response; the message is freed, and -EINVAL is returned. -/
theorem C99_tx_refused {ep : Ep} {m : PMsg} {f : Fields} {io : Bool} {cb : Ep → Res Ep}
    (hm : (ep.outgoing m).encoded = none) (hf : message (ep.outgoing m).h.type = some f) (hg : GoodHdr (ep.outgoing m).h)
    (hs : GoodStruct f (ep.outgoing m).ies) (hc : sendFate (ep.outgoing m) f = .refused) :
    ep.tx m io cb =
      ((((ep.begun m).note (.passed ep.nextId ep.n1 ep.t1 (ep.outgoing m))).failCb ep.nextId (ep.outgoing m) cb).bind
        fun ep' => (ep'.releaseUses (ep.outgoing m).ctx.uses).bind fun ep' =>
        .ok ((ep'.note (.freed ep.nextId)).note (.returned ep.nextId (some .EINVAL)))) := by
  have h1 := encode_fate hm hf hg hs
  rw [hc] at h1
  simp only at h1
  rw [tx_eq, Ep.sendMsg, h1]
  rfl

/-! ### Examples -/

/-- Whether a message is sent whole, sent cut, refused or fatal. -/
inductive Kept where
  | whole
  | cut
  | refused
  | crash
  deriving DecidableEq

def keptOf (m : PMsg) : Option Kept :=
  (message m.h.type).map fun f =>
    match sendFate m f with
    | .done o => if o = structOctets f m.ies then .whole else .cut
    | .refused => .refused
    | .crash => .crash

/-- The same with a Network Instance at the end. -/
def exModName (n : Nat) : PMsg :=
  { exMod n with
    ies := [[], [], [], exPdr n :: List.replicate 7 (exPdr 250), [], [],
      [.node [[.leaf (.u32 1)], [], [.node [[], [.leaf (.networkInst [97, 46, 98])], [], [], []]]]]] }

/-- All four happen to messages with a header and IEs in range (`exMod_good`), from one octet of a name to the next. -/
theorem C99_all_happen :
    keptOf (exMod 16) = some .whole ∧ keptOf (exMod 17) = some .crash ∧ keptOf (exMod 18) = some .crash ∧
    keptOf (exMod 19) = some .cut ∧ keptOf (exMod 20) = some .cut ∧ keptOf (exMod 21) = some .crash ∧
    keptOf (exModName 10) = some .whole ∧ keptOf (exModName 11) = some .refused := by
  decide +kernel

/-- The hypotheses of `C99_tx_crash` and `C99_tx_refused` are met: the header of such a message is in range, too. -/
example : GoodHdr (exEp.outgoing (exMod 21)).h ∧ (exEp.outgoing (exMod 21)).ies = (exMod 21).ies ∧
    (exEp.outgoing (exMod 21)).encoded = none :=
  ⟨⟨by decide, by decide, by decide, by decide, by decide, by decide⟩, rfl, rfl⟩

theorem exModName_good (n : Nat) (hn : n ≤ 250) :
    ∃ f, message (exModName n).h.type = some f ∧ GoodStruct f (exModName n).ies := by
  refine ⟨_, rfl, ?_⟩
  unfold exModName
  refine ⟨by decide, (fun v hv => by cases hv), by decide, (fun v hv => by cases hv), by decide, (fun v hv => by cases hv),
    ?_, ?_, by decide, (fun v hv => by cases hv), by decide, (fun v hv => by cases hv), by decide, ?_, trivial⟩
  · simp; decide
  · intro v hv
    rcases List.mem_cons.mp hv with rfl | hv
    · exact exPdr_good n (by omega)
    · cases (List.mem_replicate.mp hv).2
      exact exPdr_good 250 (by decide)
  · intro v hv
    cases List.mem_singleton.mp hv
    unfold Group.updateFar layout Group.updateForwardingParameters layout
    repeat' first
      | apply And.intro
      | trivial
      | (intro v hv; cases List.mem_singleton.mp hv)
      | (intro v hv; cases hv; done)
      | (show StructOf InRange _ _)
      | (show _ < _; decide)
      | (show GoodName _; exact ⟨by decide, by decide, .inr (by decide)⟩)
      | decide

end Verif.Props
