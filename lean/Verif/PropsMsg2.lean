/-
Property theorems C24-C26, C30-C34, C67: bundles, sequence numbers, allocation, accessors
(src/libosmo-pfcp/pfcp_msg.c, and the receive loop of pfcp_endpoint.c).
-/
import Verif.RxLemmas

namespace Verif.Props
open Verif Spec

/-! ### C24: bundles -/

/-- Calls of osmo_pfcp_msg_encode() with the same msgb, until one fails. -/
def encodeAll (buf : Buf) : List (Hdr × Struct IeVal) → Out Buf
  | [] => .ok buf
  | m :: ms => (msgEncode buf m.1 m.2).bind fun buf => encodeAll buf ms

/-- The IE octets of a message. -/
def payload (m : Hdr × Struct IeVal) : List UInt8 :=
  match message m.1.type with
  | some f => structOctets f m.2
  | none => []

/-- A message that the format can carry. -/
def GoodMsg (m : Hdr × Struct IeVal) : Prop :=
  GoodHdr m.1 ∧ (∃ f, message m.1.type = some f ∧ GoodStruct f m.2) ∧ (bodyOctets m.1 (payload m)).length ≤ 65535

/-- A bundle of messages on the wire. -/
def bundle (ms : List (Hdr × Struct IeVal)) : List UInt8 := bundleOctets (ms.map fun m => (m.1, payload m))

theorem bundleOctets_cons (h : Hdr) (x : List UInt8) (l : List (Hdr × List UInt8)) :
    bundleOctets ((h, x) :: l) = msgOctets (!l.isEmpty) h x ++ bundleOctets l := by
  cases l with
  | nil => simp [bundleOctets]
  | cons a l => simp [bundleOctets]

theorem encodeAll_from (ms : List (Hdr × Struct IeVal)) : ∀ (cap : Nat) (d : List UInt8) (h : Hdr) (x : List UInt8)
    (l3 : Option Nat), GoodHdr h → (∀ m ∈ ms, GoodMsg m) →
    (d ++ bundleOctets ((h, x) :: ms.map fun m => (m.1, payload m))).length ≤ cap →
    ∃ buf, encodeAll { b := ⟨cap, d ++ msgOctets false h x⟩, l3h := l3, l4h := some d.length } ms = .ok buf ∧
      buf.b.data = d ++ bundleOctets ((h, x) :: ms.map fun m => (m.1, payload m)) := by
  induction ms with
  | nil =>
    intro cap d h x l3 hg hms hcap
    exact ⟨_, rfl, by simp [bundleOctets]⟩
  | cons m ms ih =>
    intro cap d h x l3 hg hms hcap
    obtain ⟨hm1, ⟨f, hm2, hm3⟩, hm4⟩ := hms m (by simp)
    have hp : payload m = structOctets f m.2 := by simp [payload, hm2]
    rw [List.map_cons, bundleOctets_cons, bundleOctets_cons] at hcap
    simp only [List.length_append, msgOctets_length] at hcap
    have hfo := setFollowOn_last (buf := { b := ⟨cap, d ++ msgOctets false h x⟩, l3h := l3, l4h := some d.length })
      (good_carried hg) rfl rfl
    obtain ⟨l3', henc, _⟩ := msgEncode_good { b := ⟨cap, d ++ msgOctets false h x⟩, l3h := l3, l4h := some d.length }
      m.1 f m.2 (good_carried hm1) hm2 hm3 (by rw [← hp]; exact hm4) (by
        rw [hfo]
        simp only [List.length_append, msgOctets_length, ← hp]
        omega)
    rw [hfo] at henc
    simp only at henc
    simp only [encodeAll, henc, Out.bind]
    obtain ⟨buf, h1, h2⟩ := ih cap (d ++ msgOctets true h x) m.1 (structOctets f m.2) l3' hm1
      (fun m' hm' => hms m' (by simp [hm'])) (by
        rw [bundleOctets_cons]
        simp only [List.length_append, msgOctets_length, ← hp]
        omega)
    refine ⟨buf, h1, ?_⟩
    rw [h2, List.map_cons, bundleOctets_cons h x]
    simp [hp]

/-- C24: encoding good messages into one msgb that has room for them gives `Spec.bundleOctets`: the
messages one after the other, exactly the non-last ones with Follow On. -/
theorem C24_bundle_encoding (ms : List (Hdr × Struct IeVal)) (cap : Nat) (hms : ∀ m ∈ ms, GoodMsg m)
    (room : (bundle ms).length ≤ cap) :
    ∃ buf, encodeAll { b := ⟨cap, []⟩ } ms = .ok buf ∧ buf.b.data = bundle ms := by
  cases ms with
  | nil => exact ⟨_, rfl, rfl⟩
  | cons m ms =>
    obtain ⟨hm1, ⟨f, hm2, hm3⟩, hm4⟩ := hms m (by simp)
    have hp : payload m = structOctets f m.2 := by simp [payload, hm2]
    have hroom := room
    rw [bundle, List.map_cons, bundleOctets_cons] at hroom
    simp only [List.length_append, msgOctets_length] at hroom
    obtain ⟨l3', henc, _⟩ := msgEncode_good { b := ⟨cap, []⟩ } m.1 f m.2 (good_carried hm1) hm2 hm3
      (by rw [← hp]; exact hm4) (by simp only [setFollowOn, msgOctets_length, List.length_nil, ← hp]; omega)
    simp only [setFollowOn, List.nil_append] at henc
    simp only [encodeAll, henc, Out.bind]
    obtain ⟨buf, h1, h2⟩ := encodeAll_from ms cap [] m.1 (structOctets f m.2) l3' hm1
      (fun m' hm' => hms m' (by simp [hm'])) (by
        rw [← hp]
        simpa [bundle] using room)
    refine ⟨buf, by simpa using h1, ?_⟩
    rw [h2]
    simp [bundle, hp]

/-- C24: receiving such a bundle - in a buffer with a zero octet behind it - yields exactly these
messages, in order. -/
theorem C24_bundle_reception (ms : List (Hdr × Struct IeVal)) (hms : ∀ m ∈ ms, GoodMsg m) (slack : List UInt8)
    (hz : 0 ∈ slack) :
    ∃ l, rxBundle ((bundle ms).length + 1) (.received (bundle ms)) slack = .ok l ∧
      l.map (fun r => (r.hdr.h, r.ies)) = ms.map fun m => (m.1, some m.2) := by
  rw [rxBundle_eq]
  induction ms with
  | nil => exact ⟨[], rfl, rfl⟩
  | cons m ms ih =>
    obtain ⟨hm1, ⟨f, hm2, hm3⟩, hm4⟩ := hms m (by simp)
    have hp : payload m = structOctets f m.2 := by simp [payload, hm2]
    obtain ⟨l, h1, h2⟩ := ih (fun m' hm' => hms m' (by simp [hm']))
    have hb : bundle (m :: ms) = msgOctets (!(ms.map fun m => (m.1, payload m)).isEmpty) m.1 (payload m) ++ bundle ms := by
      rw [bundle, List.map_cons, bundleOctets_cons]; rfl
    generalize (!(ms.map fun m => (m.1, payload m)).isEmpty) = fo at hb
    have hml := msgOctets_length fo m.1 (payload m)
    have hhl : 8 ≤ headerLen m.1.seidPresent := by cases m.1.seidPresent <;> simp [headerLen]
    rw [hb]
    rw [rxLoop_succ _ _ _ (by rw [List.length_append]; omega), List.append_assoc]
    rw [decodeHeader_msgOctets fo m.1 (payload m) _ _ (good_carried hm1) hm4 (by rw [List.length_append]; omega)]
    have hbg := body_ge m.1 (payload m)
    have hz' : (0 : UInt8) ∈ bundle ms ++ slack := List.mem_append_right _ hz
    simp only
    rw [decodeTlv_good m.1 f m.2 hm2 hm3 (by rw [← hp]; omega) _ (by simp [Hdr.carried]) (bundle ms ++ slack)
      (by simp [hp]) (by simp [hp]) (fun _ => hz')]
    simp only [List.drop_left]
    have e2 : (msgOctets fo m.1 (payload m) ++ bundle ms).length - (msgOctets fo m.1 (payload m)).length = (bundle ms).length := by
      rw [List.length_append]; omega
    rw [e2]
    rw [(rxLoop_fuel ((bundle ms).length + 1) (bundle ms ++ slack) (bundle ms).length (by omega)).2 _
      (by rw [List.length_append]; omega), h1]
    refine ⟨_, rfl, ?_⟩
    simp [h2, carried_of_good hm1]

theorem exMsg_good : GoodMsg (exHdr, exIes) := by
  obtain ⟨f, h1, h2, h3, _⟩ := exIes_good
  refine ⟨⟨by decide, by decide, by decide, by decide, by decide, by decide⟩, ⟨f, h1, h2⟩, ?_⟩
  simp only [payload, h1]; exact h3

/-- A bundle of a Session Establishment Response, a Session Deletion Request and the former again. -/
example : ∀ m ∈ [(exHdr, exIes), ({ type := 54, seq := 3, seidPresent := true, seid := 2 }, []), (exHdr, exIes)], GoodMsg m := by
  intro m hm
  simp only [List.mem_cons, List.not_mem_nil, or_false] at hm
  rcases hm with rfl | rfl | rfl
  · exact exMsg_good
  · exact ⟨⟨by decide, by decide, by decide, by decide, by decide, by decide⟩, ⟨_, rfl, trivial⟩, by decide⟩
  · exact exMsg_good

/-- The Follow On flag, in a concrete bundle. -/
example : bundleOctets [({ type := 54, seq := 3 }, []), ({ type := 54, seq := 4 }, [])] =
    [0x24, 54, 0, 4, 0, 0, 3, 0, 0x20, 54, 0, 4, 0, 0, 4, 0] := by decide

/-! ### C25: the receive loop ends -/

/-- C25: receiving a datagram ends within its length / 4 + 1 rounds, whatever the contents of the memory. -/
theorem C25_receive_loop_ends (o slack : List UInt8) (fuel : Nat) (h : o.length / 4 < fuel) :
    rxBundle fuel (.received o) slack ≠ .diverge := by
  rw [rxBundle_eq]
  exact (rxLoop_fuel fuel _ _ h).1

/-- C25: at most a quarter of its length messages come out of it. -/
theorem C25_at_most_quarter (o slack : List UInt8) (fuel : Nat) (l : List Rx)
    (h : rxBundle fuel (.received o) slack = .ok l) : l.length ≤ o.length / 4 := by
  rw [rxBundle_eq] at h
  have := rxLoop_count fuel _ _ l h
  omega

/-- C25: each message takes at least four octets, and none beyond the end. -/
theorem C25_progress (mem : List UInt8) (len : Nat) (d : DecHdr) (h : decodeHeader (some mem) len = .ok d) :
    4 ≤ d.msgLen ∧ d.msgLen ≤ len :=
  decodeHeader_msgLen h

/-- The smallest messages: four octets of length field zero, inside eight available ones. -/
example : ∃ d, decodeHeader (some [0x20, 1, 0, 0, 0, 0, 1, 0]) 8 = .ok d ∧ d.msgLen = 4 :=
  ⟨_, C22_counterexample.choose_spec.1, C22_counterexample.choose_spec.2.1⟩

/-! ### C26: messages of a bundle do not affect each other -/

/-- What the application can see of a received message: header, classification, accessors, IEs. -/
abbrev Seen := Hdr × Bool × Option Nat × Option Nat × Struct IeVal

/-- The messages that are handled: those with decoded IEs. -/
def handled (l : List Rx) : List Seen :=
  l.filterMap fun r => r.ies.map fun ies => (r.hdr.h, r.hdr.isResponse, r.hdr.causeAt, r.hdr.nodeIdAt, ies)

/-- What is handled when the datagram `o` is received, with `slack` behind it in memory. -/
def receive (o slack : List UInt8) : Res (List Seen) :=
  (rxBundle (o.length + 1) (.received o) slack).bind fun l => .ok (handled l)

theorem receive_framed {m : List UInt8} (h : Framed m) (w slack : List UInt8) (hz : 0 ∈ slack) :
    receive (m ++ w) slack = (receive w slack).bind fun l =>
      .ok (handled [⟨headerOf m [], (decodeTlv (headerOf m [0])).toOption⟩] ++ l) := by
  have h4 := h.1
  unfold receive
  rw [rxBundle_eq, rxBundle_eq]
  have e : (m ++ w).length + 1 = (m ++ w).length - 1 + 1 + 1 := by rw [List.length_append]; omega
  rw [e, rxLoop_framed h w slack hz]
  rw [(rxLoop_fuel (w.length + 1) (w ++ slack) w.length (by omega)).2 _ (by rw [List.length_append]; omega)]
  cases rxLoop (w.length + 1) (w ++ slack) w.length with
  | ok l => cases (decodeTlv (headerOf m [0])).toOption <;> simp [handled, headerOf]
  | _ => rfl

/-- C26: a message `bad` with a proper header but IEs that do not decode is not handled, and all other
messages of the datagram are handled exactly as if it were not there: the messages `a` before it, and
whatever is behind it. -/
theorem C26_bad_message_is_skipped (a : List (List UInt8)) (bad b slack : List UInt8) (hz : 0 ∈ slack)
    (ha : ∀ m ∈ a, Framed m) (hbad : Framed bad)
    (hund : ∀ d, decodeHeader (some (bad ++ [0])) bad.length = .ok d → ∃ e, decodeTlv d = .err e) :
    receive (a.flatten ++ bad ++ b) slack = receive (a.flatten ++ b) slack := by
  induction a with
  | nil =>
    simp only [List.flatten_nil, List.nil_append]
    rw [receive_framed hbad b slack hz]
    have := decodeHeader_framed hbad [] [0]
    simp only [List.append_nil, List.nil_append] at this
    obtain ⟨e, he⟩ := hund _ this
    simp only [he, Res.toOption, handled, List.filterMap_cons, Option.map_none, List.filterMap_nil, List.nil_append]
    cases receive b slack <;> rfl
  | cons m a ih =>
    simp only [List.flatten_cons, List.append_assoc]
    rw [receive_framed (ha m (by simp)) _ slack hz, receive_framed (ha m (by simp)) _ slack hz]
    rw [← ih (fun m' hm' => ha m' (by simp [hm']))]
    simp only [List.append_assoc]

/-- C26: more generally, what is handled of a message depends on this message only: receiving messages
with proper headers is receiving each of them alone. -/
theorem C26_messages_are_independent (a : List (List UInt8)) (b slack : List UInt8) (hz : 0 ∈ slack)
    (ha : ∀ m ∈ a, Framed m) :
    ∃ alone : List (List Seen), All2 (fun m s => receive m [0] = .ok s) a alone ∧
      receive (a.flatten ++ b) slack = (receive b slack).bind fun l => .ok (alone.flatten ++ l) := by
  induction a with
  | nil => exact ⟨[], .nil, by simp only [List.flatten_nil, List.nil_append]; cases receive b slack <;> rfl⟩
  | cons m a ih =>
    obtain ⟨alone, h1, h2⟩ := ih (fun m' hm' => ha m' (by simp [hm']))
    have hm := ha m (by simp)
    have hself := receive_framed hm [] [0] (by simp)
    rw [List.append_nil] at hself
    have h0 : receive [] [0] = .ok [] := rfl
    rw [h0] at hself
    refine ⟨_ :: alone, .cons hself h1, ?_⟩
    simp only [List.flatten_cons, List.append_assoc]
    rw [receive_framed hm _ slack hz, h2]
    cases receive b slack <;> simp

/-- A Heartbeat Response whose Recovery Time Stamp is too short, and one that is fine. -/
example : Framed [0x20, 2, 0, 7, 0, 0, 1, 0, 0, 96, 0, 0] → False := by unfold Framed; decide
example : Framed [0x20, 2, 0, 8, 0, 0, 1, 0, 0, 96, 0, 0] := by unfold Framed; decide
example : receive [0x20, 2, 0, 8, 0, 0, 1, 0, 0, 96, 0, 0] [0] = .ok [] := by rfl
example : receive [0x20, 2, 0, 12, 0, 0, 1, 0, 0, 96, 0, 4, 1, 2, 3, 4] [0] =
    .ok [({ type := 2, seq := 1 }, true, none, none, [[.leaf (.u32 0x01020304)]])] := by rfl

/-! ### C67: decoded messages are well formed -/

/-- C67: if decoding the IEs of a message succeeds - for any message with a window inside the memory -,
the struct fits the layout of the message type: counts within the limits, and each value of the right
kind and in range (or a domain name). -/
theorem C67_decoded_is_well_formed (d : DecHdr) (hw : d.tlvLen ≤ d.tlvMem.length) (s : Struct IeVal)
    (h : decodeTlv d = .ok s) : ∃ f, message d.h.type = some f ∧ StructOf Decodable f s := by
  unfold decodeTlv at h
  rw [C66_message_definitions] at h
  cases hf : message d.h.type with
  | none => rw [hf] at h; simp [gtlvsDecode] at h
  | some f =>
    rw [hf] at h
    simp only [Option.map_some] at h
    have hwf := (message_wf hf).1
    have hrm := msgFields_room ((msgFields_eq _).trans hf)
    obtain ⟨k1, k2⟩ := decoded_members hwf.nodup' hrm.cap _ _ hw s h
    exact ⟨f, rfl, Fields.decoded f s hwf hrm k1 k2⟩

/-! ### C33: requests and responses -/

/-- C33: exactly the response types are classified as responses. -/
theorem C33_response_types (t : Nat) : isResponseType t = true ↔ t ∈ responseTypes := by
  simp [isResponseType, responseTypes]

/-- C33: the supported types are six requests, which are not responses, and their successors, which
are. -/
theorem C33_supported_types (t : Nat) (h : (msgFields t).isSome) :
    (isResponseType t = false ↔ t ∈ [1, 5, 9, 50, 52, 54]) ∧
    (isResponseType t = false → isResponseType (t + 1) = true ∧ (msgFields (t + 1)).isSome) ∧
    (isResponseType t = true → isResponseType (t - 1) = false ∧ (msgFields (t - 1)).isSome) := by
  rw [msgFields_eq] at h
  rw [msgFields_eq, msgFields_eq]
  unfold message at h
  split at h
  case h_13 => simp at h
  all_goals decide

/-! ### C30, C31: sequence numbers and SEIDs -/

/-- The state after `k` calls. -/
def iter {α : Type} (f : α → α) : Nat → α → α
  | 0, s => s
  | k + 1, s => iter f k (f s)

theorem iter_step {α} (f : α → α) (k : Nat) (s : α) : iter f (k + 1) s = iter f k (f s) := rfl

theorem iter_succ {α} (f : α → α) (k : Nat) (s : α) : iter f (k + 1) s = f (iter f k s) := by
  induction k generalizing s with
  | zero => rfl
  | succ k ih => rw [iter, ih]; rfl

theorem nextSeqNr_toNat (s : UInt32) : (nextSeqNr s).toNat = if (s.toNat + 1) % 2 ^ 24 = 0 then 1 else (s.toNat + 1) % 2 ^ 24 := by
  have h1 : ((s + 1) &&& 0xffffff).toNat = (s.toNat + 1) % 2 ^ 24 := by
    rw [UInt32.toNat_and, UInt32.toNat_add]
    have : (0xffffff : UInt32).toNat = 2 ^ 24 - 1 := by decide
    rw [this, Nat.and_two_pow_sub_one_eq_mod]
    have : (1 : UInt32).toNat = 1 := by decide
    rw [this]
    omega
  unfold nextSeqNr
  simp only
  by_cases h : (s + 1) &&& 0xffffff = 0
  · rw [if_pos h, if_pos (by rw [← h1, h]; decide), h]; decide
  · rw [if_neg h, if_neg, h1]
    intro h0
    apply h
    rw [← UInt32.toNat_inj, h1, h0]; decide

/-- C30: the sequence number is in 1 .. 2^24 - 1, from any state. -/
theorem C30_in_range (s : UInt32) : 1 ≤ (nextSeqNr s).toNat ∧ (nextSeqNr s).toNat < 2 ^ 24 := by
  rw [nextSeqNr_toNat]
  split
  · decide
  · have := Nat.mod_lt (s.toNat + 1) (show 2 ^ 24 > 0 by decide)
    omega

theorem nextSeqNr_iter (s : UInt32) (hs : 1 ≤ s.toNat) (hl : s.toNat < 2 ^ 24) (k : Nat) :
    (iter nextSeqNr k s).toNat = (s.toNat - 1 + k) % (2 ^ 24 - 1) + 1 := by
  induction k with
  | zero => simp only [iter]; omega
  | succ k ih =>
    rw [iter_succ, nextSeqNr_toNat, ih]
    split <;> omega

/-- C30: from any state, the numbers of two calls differ if fewer than 2^24 - 1 calls are between
them. -/
theorem C30_no_repetition (s : UInt32) (i j : Nat) (hij : i < j) (hd : j - i < 2 ^ 24 - 1) :
    iter nextSeqNr (i + 1) s ≠ iter nextSeqNr (j + 1) s := by
  have hr := C30_in_range s
  intro h
  have h1 := congrArg UInt32.toNat h
  rw [iter_step, iter_step] at h1
  rw [nextSeqNr_iter _ hr.1 hr.2, nextSeqNr_iter _ hr.1 hr.2] at h1
  omega

/-- C30: and after 2^24 - 1 calls they start over. -/
theorem C30_period (s : UInt32) (i : Nat) : iter nextSeqNr (i + 1 + (2 ^ 24 - 1)) s = iter nextSeqNr (i + 1) s := by
  have hr := C30_in_range s
  have key : ∀ p, p = 2 ^ 24 - 1 → iter nextSeqNr (i + 1 + p) s = iter nextSeqNr (i + 1) s := by
    intro p hp
    rw [show i + 1 + p = i + p + 1 by omega, iter_step, iter_step, ← UInt32.toNat_inj,
      nextSeqNr_iter _ hr.1 hr.2, nextSeqNr_iter _ hr.1 hr.2]
    omega
  exact key _ rfl

example : nextSeqNr 0 = 1 ∧ nextSeqNr 0xfffffe = 0xffffff ∧ nextSeqNr 0xffffff = 1 ∧ nextSeqNr 0xffffffff = 1 := by decide

theorem nextSeid_toNat (s : UInt64) : (nextSeid s).toNat = if (s.toNat + 1) % 2 ^ 64 = 0 then 1 else (s.toNat + 1) % 2 ^ 64 := by
  have h1 : (s + 1).toNat = (s.toNat + 1) % 2 ^ 64 := by
    rw [UInt64.toNat_add]
    have : (1 : UInt64).toNat = 1 := by decide
    rw [this]
  unfold nextSeid
  simp only
  by_cases h : s + 1 = 0
  · rw [if_pos h, if_pos (by rw [← h1, h]; decide), h]; decide
  · rw [if_neg h, if_neg, h1]
    intro h0
    apply h
    rw [← UInt64.toNat_inj, h1, h0]; decide

/-- C31: the SEID is not 0, from any state. -/
theorem C31_not_zero (s : UInt64) : (nextSeid s).toNat ≠ 0 := by
  rw [nextSeid_toNat]
  split
  · decide
  · assumption

theorem nextSeid_iter (s : UInt64) (hs : 1 ≤ s.toNat) (k : Nat) :
    (iter nextSeid k s).toNat = (s.toNat - 1 + k) % (2 ^ 64 - 1) + 1 := by
  have hl := UInt64.toNat_lt s
  induction k with
  | zero => simp only [iter]; omega
  | succ k ih =>
    rw [iter_succ, nextSeid_toNat, ih]
    split <;> omega

/-- C31: from any state, the SEIDs of two calls differ if fewer than 2^64 - 1 calls are between them. -/
theorem C31_no_repetition (s : UInt64) (i j : Nat) (hij : i < j) (hd : j - i < 2 ^ 64 - 1) :
    iter nextSeid (i + 1) s ≠ iter nextSeid (j + 1) s := by
  have hr := C31_not_zero s
  intro h
  have h1 := congrArg UInt64.toNat h
  rw [iter_step, iter_step] at h1
  rw [nextSeid_iter _ (by omega), nextSeid_iter _ (by omega)] at h1
  omega

example : nextSeid 0 = 1 ∧ nextSeid 0xffffffffffffffff = 1 ∧ nextSeid 0x7fffffffffffffff = 0x8000000000000000 := by decide

/-! ### C32: responses mirror the request -/

/-- C32: osmo_pfcp_msg_alloc_tx_resp() yields a message to the sender of the request, with its sequence
number, the given type, and marked as response exactly for response types. -/
theorem C32_response_mirrors_request (req : PMsg) (t : Nat) :
    ∃ m, msgAllocTxResp req t = some m ∧ m.remote = req.remote ∧ m.h.seq = req.h.seq ∧ m.h.type = t ∧
      (m.isResponse = true ↔ t ∈ responseTypes) ∧ m.rx = false ∧ m.h.seidPresent = false ∧ m.h.prioPresent = false ∧
      m.h.version = 1 :=
  ⟨_, rfl, rfl, rfl, rfl, C33_response_types t, rfl, rfl, rfl, rfl⟩

/-- C32: and osmo_pfcp_msg_alloc_tx_req() one to the given address, which has no sequence number yet. -/
theorem C32_request (remote : Sockaddr) (t : Nat) :
    ∃ m, msgAllocTxReq remote t = some m ∧ m.remote = remote ∧ m.h.seq = 0 ∧ m.h.type = t ∧
      (m.isResponse = true ↔ t ∈ responseTypes) ∧ m.rx = false ∧ m.h.seidPresent = false ∧ m.h.prioPresent = false ∧
      m.h.version = 1 :=
  ⟨_, rfl, rfl, rfl, rfl, C33_response_types t, rfl, rfl, rfl, rfl⟩

/-- The sequence number octets of a message. -/
def seqOctets (o : List UInt8) : List UInt8 := (o.drop (announcedHeader o - 4)).take 3

/-- C32: if the response to a received request is encoded - with SEID and priority added or not -, its
sequence number octets are those of the request. -/
theorem C32_encoded_sequence_number (o rest : List UInt8) (d : DecHdr)
    (hd : decodeHeader (some (o ++ rest)) o.length = .ok d) (buf buf' : Buf) (h : Hdr) (hh : h.seq = d.h.seq)
    (hg : GoodHdr h) (ies : Struct IeVal) (he : msgEncode buf h ies = .ok buf') :
    buf'.l4h = some buf.b.data.length ∧ seqOctets (buf'.b.data.drop buf.b.data.length) = seqOctets o := by
  obtain ⟨x, h1, h2, h3, _⟩ := msgEncode_ok_inv (good_carried hg) he
  have hlen : (setFollowOn buf).data.length = buf.b.data.length := by
    unfold setFollowOn; split
    · rfl
    · split <;> simp
  rw [← hlen]
  refine ⟨h3, ?_⟩
  rw [h1]
  simp only [List.drop_left]
  have hseq : be 3 h.seq = seqOctets o := by
    rw [decodeHeader_form] at hd
    split at hd
    · simp at hd
    rename_i hlen
    split at hd
    · simp at hd
    split at hd
    · simp at hd
    simp only [Res.ok.injEq] at hd
    subst hd
    simp only at hh
    rw [hh, be_eq]
    have hl : (seqOctets o).length = 3 := by
      have := announcedHeader_cases o
      simp only [seqOctets, List.length_take, List.length_drop]
      omega
    exact storeBE_loadBE' hl
  rw [← hseq]
  have hf := (flags_facts h.version hg.version false h.prioPresent h.seidPresent).1
  have hbit : bitAt (msgOctets false h x) 0 = h.seidPresent := by
    rw [flag_1] at hf
    rw [← hf]
    simp [bitAt, msgOctets]
  simp only [seqOctets, announcedHeader, hbit]
  cases hs : h.seidPresent
  · simp only [msgOctets, bodyOctets, hs, part, Bool.false_eq_true, if_false, List.nil_append, List.append_assoc]
    rw [show (8 - 4 : Nat) = 4 from rfl]
    simp only [List.cons_append, List.drop_succ_cons, List.nil_append]
    rw [List.drop_left' (by simp), List.take_left' (by simp)]
  · simp only [msgOctets, bodyOctets, hs, part, if_true, List.append_assoc]
    rw [show (16 - 4 : Nat) = 12 from rfl]
    simp only [List.cons_append, List.drop_succ_cons, List.nil_append]
    rw [← List.append_assoc, List.drop_left' (by simp), List.take_left' (by simp)]

/-! ### C34: accessors -/

/-- The entries of a layout. -/
def entries : Fields → List (Nat × Kind × Ty)
  | .nil => []
  | .cons iei kind ty f => (iei, kind, ty) :: entries f

/-- C34: osmo_pfcp_msg_cause() is NULL exactly for message types whose layout has no Cause, or that are
not defined; otherwise it refers to the mandatory Cause of the layout.  Likewise for the Node ID. -/
theorem C34_accessors_exist (t : Nat) :
    (match (membOfsOf t).1 with
      | none => ∀ f, message t = some f → Iei.cause ∉ (entries f).map (·.1)
      | some i => ∃ f, message t = some f ∧ (entries f)[i]? = some (Iei.cause, once, .ie .cause)) ∧
    (match (membOfsOf t).2 with
      | none => ∀ f, message t = some f → Iei.nodeId ∉ (entries f).map (·.1)
      | some i => ∃ f, message t = some f ∧ (entries f)[i]? = some (Iei.nodeId, once, .ie .nodeId)) := by
  unfold membOfsOf
  rw [C66_message_definitions]
  cases hm : message t with
  | none => simp
  | some f =>
    have hm' := hm
    unfold message at hm'
    split at hm' <;> simp only [Option.some.injEq, reduceCtorEq] at hm' <;> subst hm'
    all_goals
      first
      | exact ⟨⟨_, rfl, rfl⟩, ⟨_, rfl, rfl⟩⟩
      | exact ⟨⟨_, rfl, rfl⟩, fun f hf => by cases hf; decide⟩
      | exact ⟨fun f hf => by cases hf; decide, ⟨_, rfl, rfl⟩⟩
      | exact ⟨fun f hf => by cases hf; decide, fun f hf => by cases hf; decide⟩

theorem member_of {ok : IeVal → Prop} : ∀ (f : Fields) (s : Struct IeVal) (i : Nat) (tag : Nat) (k : IeKind),
    StructOf ok f s → (entries f)[i]? = some (tag, once, .ie k) →
    ∃ v, s[i]? = some [.leaf v] ∧ v.kind = k ∧ ok v := by
  intro f
  match f with
  | .nil => intro s i tag k _ h; simp [entries] at h
  | .cons t kd ty f =>
    intro s i tag k hs h
    match s with
    | [] => simp only [StructOf] at hs
    | vs :: s =>
      simp only [StructOf] at hs
      match i with
      | 0 =>
        simp only [entries, List.getElem?_cons_zero, Option.some.injEq, Prod.mk.injEq] at h
        obtain ⟨_, rfl, rfl⟩ := h
        obtain ⟨⟨h1, h2⟩, h3, _⟩ := hs
        simp only [least, most] at h1 h2
        match vs with
        | [] => simp at h1
        | _ :: _ :: _ => simp at h2
        | [.leaf v] =>
          have := h3 (.leaf v) (by simp)
          simp only [ValOf] at this
          exact ⟨v, rfl, this⟩
        | [.node n] =>
          have := h3 (.node n) (by simp)
          simp only [ValOf] at this
      | i + 1 =>
        have := member_of f s i tag k hs.2.2 (by simpa [entries] using h)
        simpa using this

/-- C34: after decoding a message with success, the accessors that are not NULL refer to a Cause and to
a Node ID that are there. -/
theorem C34_accessors_after_decode (o rest : List UInt8) (d : DecHdr) (ies : Struct IeVal)
    (hd : decodeHeader (some (o ++ rest)) o.length = .ok d) (hlen : announcedHeader o ≤ announcedLength o)
    (hi : decodeTlv d = .ok ies) :
    (∀ i, d.causeAt = some i → ∃ c, c < 256 ∧ ies[i]? = some [.leaf (.cause c)]) ∧
    (∀ i, d.nodeIdAt = some i → ∃ n, ies[i]? = some [.leaf (.nodeId n)]) := by
  obtain ⟨w1, w2, w3⟩ := C22_window_partial o rest d hd hlen
  obtain ⟨f, hf, hs⟩ := C67_decoded_is_well_formed d (by rw [w3]; simp; omega) ies hi
  have hc : d.causeAt = (membOfsOf d.h.type).1 ∧ d.nodeIdAt = (membOfsOf d.h.type).2 := by
    rw [decodeHeader_form] at hd
    split at hd
    · simp at hd
    split at hd
    · simp at hd
    split at hd
    · simp at hd
    simp only [Res.ok.injEq] at hd
    subst hd
    exact ⟨rfl, rfl⟩
  have ha := C34_accessors_exist d.h.type
  constructor
  · intro i hi
    have h1 := ha.1
    rw [hc.1] at hi
    rw [hi] at h1
    obtain ⟨f', hf', he⟩ := h1
    rw [hf] at hf'
    cases hf'
    obtain ⟨v, h2, h3, h4⟩ := member_of f ies i _ _ hs he
    cases v <;> simp [IeVal.kind] at h3
    rename_i c
    refine ⟨c, ?_, h2⟩
    rcases h4 with h4 | ⟨s, h4⟩ | ⟨s, h4⟩
    · exact h4
    · simp at h4
    · simp at h4
  · intro i hi
    have h1 := ha.2
    rw [hc.2] at hi
    rw [hi] at h1
    obtain ⟨f', hf', he⟩ := h1
    rw [hf] at hf'
    cases hf'
    obtain ⟨v, h2, h3, h4⟩ := member_of f ies i _ _ hs he
    cases v <;> simp [IeVal.kind] at h3
    exact ⟨_, h2⟩

/-- A message that is being set up for transmission has its (blank) Cause and Node ID members, too. -/
theorem zero_member : ∀ (f : Fields) (i : Nat) (tag : Nat) (k : IeKind),
    (entries f)[i]? = some (tag, once, .ie k) → f.zero[i]? = some [.leaf k.zero] := by
  intro f
  match f with
  | .nil => intro i tag k h; simp [entries] at h
  | .cons t kd ty f =>
    intro i tag k h
    match i with
    | 0 =>
      simp only [entries, List.getElem?_cons_zero, Option.some.injEq, Prod.mk.injEq] at h
      obtain ⟨_, rfl, rfl⟩ := h
      simp [Fields.zero, Ty.zero]
    | i + 1 =>
      have := zero_member f i tag k (by simpa [entries] using h)
      simpa [Fields.zero] using this

/-- The message type is defined, and has this IE. -/
def HasIe (t iei : Nat) : Prop := ∃ f, message t = some f ∧ iei ∈ (entries f).map (·.1)

/-- C34: the same for a message allocated for transmission: the accessors refer to the (blank) members
of the message's own type, or are NULL if there are none. -/
theorem C34_accessors_after_alloc (remote : Sockaddr) (t : Nat) (m : PMsg) (h : msgAllocTxReq remote t = some m) :
    (HasIe t Iei.cause → m.cause = some [.leaf (.cause 0)]) ∧ (¬ HasIe t Iei.cause → m.cause = none) ∧
    (HasIe t Iei.nodeId → m.nodeId = some [.leaf (.nodeId (.v4 .unspec))]) ∧ (¬ HasIe t Iei.nodeId → m.nodeId = none) := by
  have hm : m.causeAt = (membOfsOf t).1 ∧ m.nodeIdAt = (membOfsOf t).2 ∧
      m.ies = match msgFields t with | some f => f.zero | none => [] := by
    have h' := Option.some.inj (show some _ = some m from h)
    rw [← h']
    exact ⟨rfl, rfl, rfl⟩
  obtain ⟨h1, h2⟩ := C34_accessors_exist t
  simp only [PMsg.cause, PMsg.nodeId, hm]
  refine ⟨?_, ?_, ?_, ?_⟩
  · rintro ⟨f, hf, hmem⟩
    cases hc : (membOfsOf t).1 with
    | none => rw [hc] at h1; exact absurd hmem (h1 f hf)
    | some i =>
      rw [hc] at h1
      obtain ⟨f', hf', he⟩ := h1
      simp only [Option.bind_some, msgFields_eq, hf']
      exact zero_member f' i _ _ he
  · intro hn
    cases hc : (membOfsOf t).1 with
    | none => rfl
    | some i =>
      rw [hc] at h1
      obtain ⟨f', hf', he⟩ := h1
      exact absurd ⟨f', hf', List.mem_map.mpr ⟨_, List.mem_of_getElem? he, rfl⟩⟩ hn
  · rintro ⟨f, hf, hmem⟩
    cases hc : (membOfsOf t).2 with
    | none => rw [hc] at h2; exact absurd hmem (h2 f hf)
    | some i =>
      rw [hc] at h2
      obtain ⟨f', hf', he⟩ := h2
      simp only [Option.bind_some, msgFields_eq, hf']
      exact zero_member f' i _ _ he
  · intro hn
    cases hc : (membOfsOf t).2 with
    | none => rfl
    | some i =>
      rw [hc] at h2
      obtain ⟨f', hf', he⟩ := h2
      exact absurd ⟨f', hf', List.mem_map.mpr ⟨_, List.mem_of_getElem? he, rfl⟩⟩ hn

example : membOfsOf 51 = (some 1, some 0) ∧ membOfsOf 53 = (some 0, none) ∧ membOfsOf 1 = (none, none) := by decide

/-- An Association Setup Response from 127.0.0.1, accepted. -/
def exSetupResp : List UInt8 :=
  [0x20, 6, 0, 26, 0, 0, 1, 0, 0, 60, 0, 5, 0, 127, 0, 0, 1, 0, 19, 0, 1, 1, 0, 96, 0, 4, 0, 0, 0, 9]

/-- What is decoded of it: the positions that the accessors use, and the IEs. -/
def exDecoded (o : List UInt8) : Option (Option Nat × Option Nat × Struct IeVal) :=
  match decodeHeader (some o) o.length with
  | .ok d =>
    match decodeTlv d with
    | .ok s => some (d.causeAt, d.nodeIdAt, s)
    | _ => none
  | _ => none

set_option maxRecDepth 100000 in
/-- The hypotheses of C34_accessors_after_decode and C67_decoded_is_well_formed are met. -/
example : announcedHeader exSetupResp ≤ announcedLength exSetupResp ∧
    exDecoded exSetupResp = some (some 1, some 0,
      [[.leaf (.nodeId (.v4 (.inet 0x7f000001 0)))], [.leaf (.cause 1)], [.leaf (.u32 9)], [], []]) := by
  constructor
  · decide
  · rfl

end Verif.Props
