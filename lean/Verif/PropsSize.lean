/-
C19: all messages; C74: messages that do not fit the buffer.
-/
import Verif.SizeLemmas
import Verif.PropsSafe

namespace Verif.Props
open Verif Spec

/-! ### Sizes -/

theorem message_most {t : Nat} {f : Fields} (h : message t = some f) : f.most ≤ 61729 := by
  unfold message at h
  split at h <;> first | (cases h; decide) | cases h

theorem message_small {t : Nat} {f : Fields} (h : message t = some f) (h1 : t ≠ 50) (h2 : t ≠ 52) (h3 : t ≠ 53) :
    f.most ≤ 1551 := by
  unfold message at h
  split at h <;> first | contradiction | (cases h; decide) | cases h

theorem msgOctets_length (fo : Bool) (h : Hdr) (x : List UInt8) :
    (msgOctets fo h x).length = headerLen h.seidPresent + x.length := by
  simp only [msgOctets, bodyOctets, List.length_append, be_length, List.length_cons, List.length_nil, headerLen]
  cases h.seidPresent <;> simp [part, be_length] <;> omega

/-- C19, for all messages: no struct that fits its layout is too long for the length field. -/
theorem C19_every_message (h : Hdr) (f : Fields) (ies : Struct IeVal) (cap : Nat)
    (hf : message h.type = some f) (hg : GoodHdr h) (hs : GoodStruct f ies)
    (room : (msgOctets false h (structOctets f ies)).length ≤ cap) :
    ∃ buf, msgEncode { b := ⟨cap, []⟩ } h ies = .ok buf ∧
      buf.b.data = msgOctets false h (structOctets f ies) ∧
      ∀ slack, (HasRuleNames f ies → 0 ∈ slack) →
        ∃ d, buf.decodeHeader slack = .ok d ∧ d.h = h ∧ d.msgLen = buf.b.data.length ∧ decodeTlv d = .ok ies := by
  refine C19_message_round_trip h f ies cap hf hg hs ?_ room
  have h1 := Fields.le_most f ies hs
  have h2 := message_most hf
  have h3 := msgOctets_length false h (structOctets f ies)
  have h4 : (msgOctets false h (structOctets f ies)).length = 4 + (bodyOctets h (structOctets f ies)).length := by
    simp only [msgOctets, List.length_append, be_length, List.length_cons, List.length_nil]
  have : headerLen h.seidPresent ≤ 16 := by cases h.seidPresent <;> decide
  omega

/-- C28: no message that can be built from the structs is too long for the length field: where `C28_too_long_is_emsgsize`
applies, IEs have values that do not fit their types. -/
theorem C28_never_too_long {h : Hdr} {f : Fields} {ies : Struct IeVal} (hf : message h.type = some f)
    (hs : GoodStruct f ies) : (msgOctets false h (structOctets f ies)).length < 65535 + 4 := by
  have h1 := Fields.le_most f ies hs
  have h2 := message_most hf
  rw [msgOctets_length]
  have : headerLen h.seidPresent ≤ 16 := by cases h.seidPresent <;> decide
  omega

/-! ### C74 -/

/-- Encoding does not write behind the buffer. -/
theorem msgEncode_le {cap : Nat} {h : Hdr} {ies : Struct IeVal} {buf : Buf} (hg : GoodHdr h)
    (he : msgEncode { b := ⟨cap, []⟩ } h ies = .ok buf) : buf.b.data.length ≤ cap := by
  obtain ⟨x, h1, -, -, h4⟩ := msgEncode_ok_inv (good_carried hg) he
  simp only [setFollowOn_none, List.nil_append] at h1 h4
  have hh : headerLen h.seidPresent ≤ cap := by
    rw [msgEncode_eq _ _ _ (good_carried hg)] at he
    by_cases hc : headerLen h.seidPresent ≤ cap
    · exact hc
    · simp [setFollowOn_none, hc, Out.buf] at he
  have := ((encTlv_grows h ies _).1 _ h4).2.2 (by simpa [headerOctets_length] using hh)
  rw [h1]
  rw [List.length_append, headerOctets_length] at this
  rw [msgOctets_length]
  exact this

/-- C74, for a msgb: if encoding a message succeeds and leaves at least four octets of room, the octets are those of
the message - whether or not they would all have fitted. -/
theorem C74_encoding_partial {h : Hdr} {f : Fields} {ies : Struct IeVal} {cap : Nat} {buf : Buf}
    (hf : message h.type = some f) (hg : GoodHdr h) (hs : GoodStruct f ies)
    (he : msgEncode { b := ⟨cap, []⟩ } h ies = .ok buf) (hroom : buf.b.data.length + 4 ≤ cap) :
    buf.b.data = msgOctets false h (structOctets f ies) := by
  obtain ⟨x, h1, h2, -, h4⟩ := msgEncode_ok_inv (good_carried hg) he
  simp only [setFollowOn_none, List.nil_append] at h1 h4
  have hd : buf.b.data = msgOctets false h x := by rw [h1]
  have hle := Fields.le_most f ies hs
  have hmm := message_most hf
  obtain ⟨k1, k2⟩ := Fields.loose f ies (message_wf hf).1 hs (by omega)
  obtain ⟨k3, k4⟩ := octets16_eq (ieList f ies) k2
  simp only [encTlv, C66_message_definitions, hf, Option.map_some] at h4
  obtain ⟨-, -, g⟩ := gtlvsEncode_loose t16l16v_lawful k1 k4 (fun _ _ => dom16_zero) _ _ h4
  rw [k3, ← structOctets_eq] at g
  have hx := g (by
    show (headerOctets h ++ x).length + 4 ≤ cap
    rw [List.length_append, headerOctets_length]
    rw [hd, msgOctets_length] at hroom
    exact hroom)
  rw [hd, List.append_cancel_left hx]

/-- C74: whatever message is passed to osmo_pfcp_endpoint_tx() - if its header and its IEs are in range, then each
datagram that is sent for it, by then or later, is the message - or the message is longer than the buffer of 2048
octets, and the datagram fills that buffer up to its last three octets.
Missing from C74: in this last case the datagram is another message or none, see `C74_counterexample`. -/
theorem C74_sent_faithfully_partial {ep : Ep} (h : Reached ep) {id n1 t1} {m : PMsg} {f : Fields}
    (hp : Event.passed id n1 t1 m ∈ ep.log) (hm : m.encoded = none) (hf : message m.h.type = some f)
    (hg : GoodHdr m.h) (hs : GoodStruct f m.ies) :
    ∀ x ∈ transmissions id ep.log, x.1 = m.remote ∧
      (x.2 = msgOctets false m.h (structOctets f m.ies) ∨
       2048 < (msgOctets false m.h (structOctets f m.ies)).length ∧ 2045 ≤ x.2.length ∧ x.2.length ≤ 2048) := by
  intro x hx
  obtain ⟨x1, x2⟩ := (C46_bounded_identical h hp).2.1 x hx
  refine ⟨x1, ?_⟩
  unfold PMsg.encode at x2
  rw [hm] at x2
  dsimp only at x2
  by_cases hfit : (msgOctets false m.h (structOctets f m.ies)).length ≤ 2048
  · left
    obtain ⟨buf, h1, h2, -⟩ := C19_every_message m.h f m.ies allocSize hf hg hs hfit
    rw [h1] at x2
    simp only [Out.ok.injEq] at x2
    rw [← x2, h2]
  · cases hb : msgEncode { b := ⟨allocSize, []⟩ } m.h m.ies with
    | ok buf =>
      rw [hb] at x2
      simp only [Out.ok.injEq] at x2
      rw [← x2]
      by_cases hl : buf.b.data.length + 4 ≤ allocSize
      · exact .inl (C74_encoding_partial hf hg hs hb hl)
      · right
        unfold allocSize at hl
        exact ⟨by omega, by omega, msgEncode_le hg hb⟩
    | _ => rw [hb] at x2; cases x2

/-- C74: Session Establishment Requests, Session Modification Requests and Session Modification Responses are the only
messages that may be too long. All others are always sent as they should be. -/
theorem C74_others_fit {h : Hdr} {f : Fields} {ies : Struct IeVal} (hf : message h.type = some f)
    (hs : GoodStruct f ies) (ht : h.type ≠ 50 ∧ h.type ≠ 52 ∧ h.type ≠ 53) :
    (msgOctets false h (structOctets f ies)).length ≤ 2048 := by
  have h1 := Fields.le_most f ies hs
  have h2 := message_small hf ht.1 ht.2.1 ht.2.2
  rw [msgOctets_length]
  have : headerLen h.seidPresent ≤ 16 := by cases h.seidPresent <;> decide
  omega

theorem C74_others_sent_faithfully {ep : Ep} (h : Reached ep) {id n1 t1} {m : PMsg} {f : Fields}
    (hp : Event.passed id n1 t1 m ∈ ep.log) (hm : m.encoded = none) (hf : message m.h.type = some f)
    (hg : GoodHdr m.h) (hs : GoodStruct f m.ies) (ht : m.h.type ≠ 50 ∧ m.h.type ≠ 52 ∧ m.h.type ≠ 53) :
    ∀ x ∈ transmissions id ep.log, x = (m.remote, msgOctets false m.h (structOctets f m.ies)) := by
  intro x hx
  obtain ⟨h1, h2 | h2⟩ := C74_sent_faithfully_partial h hp hm hf hg hs x hx
  · exact Prod.ext h1 h2
  · have := C74_others_fit hf hs ht
    omega

/-- The hypotheses are met: the Heartbeat Request of `exSend` is passed and sent. -/
example : ∃ ep, exec exSend exEp = .ok ep ∧ Reached ep ∧
    (∃ m, Event.passed 0 2 100 m ∈ ep.log ∧ m.encoded = none ∧ GoodHdr m.h ∧
      (∃ f, message m.h.type = some f ∧ GoodStruct f m.ies) ∧ m.h.type ≠ 50 ∧ m.h.type ≠ 52 ∧ m.h.type ≠ 53) ∧
    transmissions 0 ep.log = [(exRemote, exOctets)] := by
  refine ⟨_, rfl, Reached.exec (ops := exSend) (ep := exEp) exEp_reached rfl, ⟨_, .tail _ (.tail _ (.head _)), rfl, ?_, ⟨_, rfl, ?_⟩,
    by decide, by decide, by decide⟩, rfl⟩
  · exact ⟨by decide, by decide, by decide, by decide, by decide, by decide⟩
  · refine ⟨⟨by decide, by decide⟩, ?_, trivial⟩
    intro v hv
    cases List.mem_singleton.mp hv
    exact ⟨rfl, by show _ < _; decide⟩

/-- A Session Modification Request with eight Create PDRs and an Update FAR with Apply Action. -/
def exMod (n : Nat) : PMsg :=
  { remote := exRemote, h := { version := 1, type := 52, seidPresent := true, seid := 1 }
    ies := [[], [], [], exPdr n :: List.replicate 7 (exPdr 250), [], [],
      [.node [[.leaf (.u32 1)], [.leaf (.applyAction [2, 0])], []]]] }

theorem exPdr_good (n : Nat) (hn : n ≤ 255) : GoodVal Group.createPdr (exPdr n) := by
  unfold exPdr Group.createPdr Group.pdi layout
  repeat' first
    | apply And.intro
    | trivial
    | (intro v hv; cases List.mem_singleton.mp hv)
    | (intro v hv; cases hv; done)
    | (show StructOf InRange _ _)
    | (show _ < _; decide)
    | decide
  · exact Nat.zero_le _
  · exact Nat.le_refl _
  · simpa using hn
  · intro hx; cases (List.mem_replicate.mp hx).2

/-- The message is in range. -/
theorem exMod_good (n : Nat) (hn : n ≤ 250) : ∃ f, message (exMod n).h.type = some f ∧ GoodStruct f (exMod n).ies := by
  refine ⟨_, rfl, ?_⟩
  unfold exMod
  refine ⟨by decide, (fun v hv => by cases hv), by decide, (fun v hv => by cases hv), by decide, (fun v hv => by cases hv),
    ?_, ?_, by decide, (fun v hv => by cases hv), by decide, (fun v hv => by cases hv), by decide, ?_, trivial⟩
  · simp; decide
  · intro v hv
    rcases List.mem_cons.mp hv with rfl | hv
    · exact exPdr_good n (by omega)
    · cases (List.mem_replicate.mp hv).2
      exact exPdr_good 250 (by decide)
  · intro v hv
    cases List.mem_singleton.mp hv
    unfold Group.updateFar layout
    repeat' first
      | apply And.intro
      | trivial
      | (intro v hv; cases List.mem_singleton.mp hv)
      | (intro v hv; cases hv; done)
      | (show StructOf InRange _ _)
      | (show _ < _; decide)
      | decide

/-- The datagram that is sent for the message is decoded without error, without Apply Action. -/
def exModLost : Bool :=
  match exec [.app (.bind true (.tx (exMod 19) true .done .done))] exEp with
  | .ok ep =>
    match transmissions 0 ep.log with
    | [(_, o)] =>
      match decodeHeader (some o) o.length with
      | .ok d =>
        match decodeTlv d with
        | .ok [_, _, _, _, _, _, [.node [[.leaf (.u32 1)], [], []]]] => true
        | _ => false
      | _ => false
    | _ => false
  | _ => false

/-- C74 is false of the code: the Session Modification Request `exMod 19` is in range, has 2051 octets and does not fit
the buffer; the endpoint sends it nevertheless, as a datagram that the receiver decodes without error, but in which the
Apply Action of the Update FAR is missing. -/
theorem C74_counterexample :
    (∃ f, message (exMod 19).h.type = some f ∧ GoodStruct f (exMod 19).ies) ∧
    ∃ ep r o d s, exec [.app (.bind true (.tx (exMod 19) true .done .done))] exEp = .ok ep ∧
      transmissions 0 ep.log = [(r, o)] ∧ decodeHeader (some o) o.length = .ok d ∧ decodeTlv d = .ok s ∧
      (exMod 19).ies[6]? = some [.node [[.leaf (.u32 1)], [.leaf (.applyAction [2, 0])], []]] ∧
      s[6]? = some [.node [[.leaf (.u32 1)], [], []]] := by
  refine ⟨exMod_good 19 (by decide), ?_⟩
  have h : exModLost = true := by decide +kernel
  unfold exModLost at h
  split at h
  · rename_i ep he
    split at h
    · rename_i r o ht
      split at h
      · rename_i d hd
        split at h
        · rename_i hs
          exact ⟨ep, r, o, d, _, he, ht, hd, hs, rfl, rfl⟩
        · cases h
      · cases h
    · cases h
  · cases h

end Verif.Props
