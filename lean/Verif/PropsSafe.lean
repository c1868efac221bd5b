/-
C72: rules under which the endpoint does not crash, and that they are needed.
-/
import Verif.EndpointSafe

namespace Verif.Props
open Verif Spec

/-- Such histories, from such a state. -/
theorem exec_calm {own : Nat → Prop} {nid : NodeId} (hn : InRange (.nodeId nid)) : ∀ (ops : List Op) (ep : Ep), Reached ep →
    Calm own nid ep → (∀ op ∈ ops, op.Tame own nid) → ∃ ep', exec ops ep = .ok ep' ∧ Reached ep' ∧ Calm own nid ep'
  | [], ep, hr, hc, _ => ⟨ep, rfl, hr, hc⟩
  | op :: ops, ep, hr, hc, ho => by
    obtain ⟨ep1, h1, c1⟩ := step_total hn hr.both hc hr.busy (ho op (.head _))
    obtain ⟨ep2, h2, r2, c2⟩ := exec_calm hn ops ep1 (.op op hr h1) c1 fun op h => ho op (.tail _ h)
    exact ⟨ep2, by unfold exec; rw [h1]; exact h2, r2, c2⟩

theorem Calm.create {own : Nat → Prop} {cfg : EpCfg} (n1 t1 keepResp unixTime now : Nat) :
    Calm own cfg.nodeId (Ep.create cfg n1 t1 keepResp unixTime now) := by
  refine ⟨?_, rfl, (fun h => by cases h), ?_, (fun _ h => by cases h), (fun _ h => by cases h), (fun _ h => by cases h)⟩
  · exact Nat.mod_lt _ (by decide)
  · intro fi hf
    cases List.mem_singleton.mp hf

theorem exec_state {own : Nat → Prop} {cfg : EpCfg} {ops : List Op} (hn : InRange (.nodeId cfg.nodeId))
    (hops : ∀ op ∈ ops, op.Tame own cfg.nodeId) (n1 t1 keepResp unixTime now : Nat) {ep : Ep}
    (h : exec ops (Ep.create cfg n1 t1 keepResp unixTime now) = .ok ep) : Reached ep ∧ Calm own cfg.nodeId ep := by
  obtain ⟨ep', h1, h2⟩ := exec_calm hn ops _ (.create ..) (Calm.create n1 t1 keepResp unixTime now) hops
  rw [h] at h1
  cases h1
  exact h2

/-- C72: an endpoint does not crash - no failed assertion, no access to freed or foreign memory, no endless loop -
whatever the history, if the application and the received datagrams observe the rules of `Op.Tame`:
messages that are sent can be encoded in the buffer, the FSM instances of CP peers are not invalidated, the endpoint
is neither closed nor bound again inside of callbacks that run while it handles a received message or a timer (but for
rx_msg_cb() when the datagram has only requests in it), datagrams have less than 2048 octets and their length fields
cover the headers. -/
theorem C72_no_crash {own : Nat → Prop} {cfg : EpCfg} {ops : List Op} (hn : InRange (.nodeId cfg.nodeId))
    (hops : ∀ op ∈ ops, op.Tame own cfg.nodeId) (n1 t1 keepResp unixTime now : Nat) :
    ∃ ep, exec ops (Ep.create cfg n1 t1 keepResp unixTime now) = .ok ep := by
  obtain ⟨ep, h, -⟩ := exec_calm hn ops _ (.create ..) (Calm.create n1 t1 keepResp unixTime now) hops
  exact ⟨ep, h⟩

/-- C72: a message with a proper header and a proper struct (after its Node ID is set) that fits the buffer can be
sent. -/
theorem C72_sendable {nid : NodeId} {m : PMsg} {f : Fields} (hm : m.encoded = none) (hf : message m.h.type = some f)
    (hg : GoodHdr m.h) (hs : GoodStruct f (m.withNodeId nid).ies)
    (hl : (msgOctets false m.h (structOctets f (m.withNodeId nid).ies)).length ≤ 2048) : m.Sendable nid := by
  have key : ∀ h : Hdr, GoodHdr h → h.type = m.h.type → h.seidPresent = m.h.seidPresent →
      ({ m with h := h }.withNodeId nid).encode.Returns := by
    intro h hg' ht hsp
    have e1 : ({ m with h := h }.withNodeId nid).encoded = none ∧ ({ m with h := h }.withNodeId nid).h = h ∧
        ({ m with h := h }.withNodeId nid).ies = (m.withNodeId nid).ies := by
      unfold PMsg.withNodeId
      cases m.nodeIdAt <;> exact ⟨hm, rfl, rfl⟩
    unfold PMsg.encode
    rw [e1.1, e1.2.1, e1.2.2]
    dsimp only
    have hlen : (msgOctets false h (structOctets f (m.withNodeId nid).ies)).length =
        (msgOctets false m.h (structOctets f (m.withNodeId nid).ies)).length := by
      simp only [msgOctets, bodyOctets, hsp, List.length_append, be_length]
      cases m.h.seidPresent <;> simp [part, be_length]
    have h4 : (bodyOctets h (structOctets f (m.withNodeId nid).ies)).length ≤
        (msgOctets false h (structOctets f (m.withNodeId nid).ies)).length := by
      simp only [msgOctets, List.length_append]
      omega
    obtain ⟨buf, hb, -⟩ := C19_message_round_trip h f (m.withNodeId nid).ies allocSize (by rw [ht]; exact hf) hg' hs (by omega)
      (by unfold allocSize; omega)
    rw [hb]
    trivial
  unfold PMsg.Sendable
  split
  · exact key m.h hg rfl rfl
  · intro seq hq
    exact key { m.h with seq := seq } ⟨hg.version, hg.type, hq, hg.prio, hg.seid, hg.prioNeedsSeid⟩ rfl rfl

theorem announcedHeader_append {a b : List UInt8} (h : a ≠ []) : announcedHeader (a ++ b) = announcedHeader a := by
  cases a with
  | nil => exact absurd rfl h
  | cons x a => rfl

theorem announcedLength_append {a b : List UInt8} (h : 4 ≤ a.length) : announcedLength (a ++ b) = announcedLength a := by
  unfold announcedLength
  rw [List.drop_append_of_le_length (by omega), List.take_append_of_le_length (by rw [List.length_drop]; omega)]

/-- C72: datagrams of properly framed messages (whatever IEs they contain) observe the rule. -/
theorem C72_framed_covered (l : List (List UInt8)) (h : ∀ m ∈ l, Framed m) : Covered l.flatten := by
  induction l with
  | nil =>
    intro i _ hi
    simp only [List.flatten_nil, List.drop_nil, List.length_nil] at hi
    have : announcedHeader [] = 8 := rfl
    omega
  | cons m l ih =>
    have hm := h m (.head _)
    obtain ⟨h4, hh, hl, -⟩ := hm
    have ih := ih fun x hx => h x (.tail _ hx)
    have hne : m ≠ [] := by rintro rfl; simp at h4
    have e0 : announcedHeader (m ++ l.flatten) = announcedHeader m := announcedHeader_append hne
    have e1 : announcedLength (m ++ l.flatten) = m.length := (announcedLength_append h4).trans hl
    rw [List.flatten_cons]
    have key : ∀ i, Begins (m ++ l.flatten) i → i = 0 ∨ ∃ j, i = m.length + j ∧ Begins l.flatten j := by
      intro i hb
      induction hb with
      | first => exact .inl rfl
      | @next i hb ih =>
        rcases ih with rfl | ⟨j, rfl, hj⟩
        · right
          refine ⟨0, ?_, .first⟩
          rw [List.drop_zero, e1]
          omega
        · right
          have : (m ++ l.flatten).drop (m.length + j) = l.flatten.drop j := by
            rw [List.drop_append, List.drop_eq_nil_of_le (by omega)]
            simp
          rw [this]
          exact ⟨_, Nat.add_assoc .., hj.next⟩
    intro i hb hi
    rcases key i hb with rfl | ⟨j, rfl, hj⟩
    · rw [List.drop_zero, e0, e1]; exact hh
    · have : (m ++ l.flatten).drop (m.length + j) = l.flatten.drop j := by
        rw [List.drop_append, List.drop_eq_nil_of_le (by omega)]
        simp
      rw [this] at hi ⊢
      refine ih j hj ?_
      rw [List.length_append] at hi
      omega

/-! ### The rules are needed -/

/-- Whether a function accesses memory that it must not access, or fails an assertion. -/
def Res.isUb {α : Type} : Res α → Bool
  | .ub => true
  | _ => false
def Res.isAbort {α : Type} : Res α → Bool
  | .abort => true
  | _ => false
theorem Res.ub_of {α : Type} {r : Res α} (h : Res.isUb r = true) : r = .ub := by cases r <;> first | rfl | cases h
theorem Res.abort_of {α : Type} {r : Res α} (h : Res.isAbort r = true) : r = .abort := by cases r <;> first | rfl | cases h

/-- A datagram of twelve octets, whose length field says that it has four: then the window for its IEs is
2^32 - 4 octets long. -/
def exShort : List UInt8 := [0x20, 1, 0, 0, 0, 0, 1, 0, 0x7f, 0xff, 0x07, 0xf4]

/-- C72: in every state, every endpoint that receives it reads memory behind its buffer. -/
theorem C72_short_length {ep : Ep} (hs : ep.sock = true) (hr : ep.cfg.hasRx = true) (remote : Sockaddr) (rs : List React) :
    ep.rxDatagram remote exShort rs = .ub := by
  unfold Ep.rxDatagram
  have ht : exShort.take allocSize = exShort := rfl
  dsimp only
  rw [ht, if_neg (by rw [hs]; simp [exShort]), if_neg (by simp [hr])]
  have : rxBundle (exShort.length + 1) (.received exShort) (List.replicate (allocSize - exShort.length) 0) = .ub :=
    Res.ub_of (by decide +kernel)
  rw [this]
  rfl

/-- A Session Modification Request of 2048 octets: an unknown IE, and a Create PDR that ends with
Activate Predefined Rules of 11 octets (none of them NUL). -/
def exLong : List UInt8 :=
  [0x20, 52, 0x07, 0xfc, 0, 0, 1, 0] ++ [0x7f, 0xff, 0x07, 0xca] ++ List.replicate 1994 1 ++
    [0, 1, 0, 38, 0, 56, 0, 2, 0, 1, 0, 29, 0, 4, 0, 0, 0, 1, 0, 2, 0, 5, 0, 20, 0, 1, 0, 0, 106, 0, 11, 120, 121, 122, 120, 121, 122, 120, 121, 122, 120, 121]

/-- C72: in every state, every endpoint that receives it reads memory behind its buffer. -/
theorem C72_full_buffer {ep : Ep} (hs : ep.sock = true) (hr : ep.cfg.hasRx = true) (remote : Sockaddr) (rs : List React) :
    exLong.length = 2048 ∧ ep.rxDatagram remote exLong rs = .ub := by
  have hl : exLong.length = 2048 := by decide +kernel
  refine ⟨hl, ?_⟩
  unfold Ep.rxDatagram
  have ht : exLong.take allocSize = exLong := List.take_of_length_le (by rw [hl]; decide)
  dsimp only
  rw [ht, if_neg (by rw [hs]; intro h; rcases h with h | h; · exact h rfl
                     · rw [h] at hl; cases hl), if_neg (by simp [hr])]
  have : rxBundle (exLong.length + 1) (.received exLong) (List.replicate (allocSize - exLong.length) 0) = .ub :=
    Res.ub_of (by decide +kernel)
  rw [this]
  rfl

/-- A Create PDR with Activate Predefined Rules of `n` octets, and a Create FAR. -/
def exPdr (n : Nat) : Val IeVal :=
  .node [[.leaf (.u16 1)], [.leaf (.u32 2)], [.node [[.leaf (.sourceIface 0)], [], [], [], [], []]], [], [],
    [.leaf (.apr (List.replicate n 97))]]
def exFar : Val IeVal := .node [[.leaf (.u32 1)], [.leaf (.applyAction [2, 0])], []]

/-- A Session Establishment Request with eight Create PDRs. -/
def exBig (n : Nat) : PMsg :=
  { remote := exRemote, h := { version := 1, type := 50, seidPresent := true, seid := 1 }, nodeIdAt := some 0
    ies := [[.leaf (.nodeId (.v4 (.inet 0x7f000002 0)))], [], exPdr n :: List.replicate 7 (exPdr 250), [exFar]] }

/-- C72: a message of 2049 octets does not fit. -/
theorem C72_too_long : exec [.app (.bind true (.tx (exBig 8) true .done .done))] exEp = .abort :=
  Res.abort_of (by decide +kernel)

/-- C72: the endpoint is closed in resp_cb(). -/
theorem C72_close_in_callback :
    exec (exSend ++ [.rx exRemote exRespOctets [{ onResp := .close .done }]]) exEp = .ub := by
  set_option maxRecDepth 100000 in rfl

/-- C72: the FSM instance of a CP peer is invalidated while it waits for a response. -/
theorem C72_invalidated_peer :
    exec (exAssociate ++ [.app (.invalidate 7 .done), .rx exUpf exAccept []]) exEp = .ub := C60_invalidated_peer

/-! ### An example -/

theorem exReq_sendable (nid : NodeId) : exReq.Sendable nid := by
  refine C72_sendable (f := layout [(Iei.recoveryTimeStamp, once, .ie .u32)]) rfl rfl
    ⟨by decide, by decide, by decide, by decide, by decide, by decide⟩ ?_ (by
    show (msgOctets false exReq.h (structOctets (layout [(Iei.recoveryTimeStamp, once, .ie .u32)]) exReq.ies)).length ≤ 2048
    decide)
  refine ⟨⟨by decide, by decide⟩, ?_, trivial⟩
  intro v hv
  cases List.mem_singleton.mp hv
  exact ⟨rfl, by show _ < _; decide⟩

/-- CP peer 7 associates; then a request is sent and retransmitted, and a Heartbeat Response arrives. -/
def exTame : List Op :=
  exAssociate ++ [.rx exUpf exAccept [{ onResp := .heartbeat exUpf true .done }]] ++ exSend ++ exTimer ++ exResp

/-- The hypotheses are met. -/
example : (∀ op ∈ exTame, op.Tame (· = 7) (.v4 (.inet 0x7f000002 0))) ∧ InRange (.nodeId (.v4 (.inet 0x7f000002 0))) ∧
    peerObs 7 exTame = some ([.associated, .waitAssoc, .disabled], true, [true], [3], 0) := by
  refine ⟨?_, ⟨_, by decide, rfl⟩, by set_option maxRecDepth 100000 in rfl⟩
  have c1 : Covered exRespOctets := by
    have := C72_framed_covered [exRespOctets] (by intro m hm; cases List.mem_singleton.mp hm; exact ⟨by decide, by decide, by decide, by decide⟩)
    simpa using this
  have c2 : Covered exAccept := by
    have := C72_framed_covered [exAccept] (by intro m hm; cases List.mem_singleton.mp hm; exact ⟨by decide, by decide, by decide, by decide⟩)
    simpa using this
  intro op hop
  simp only [exTame, exSend, exTimer, exResp, exAssociate, List.cons_append, List.nil_append, List.mem_cons, List.not_mem_nil, or_false] at hop
  rcases hop with rfl | rfl | rfl | rfl | rfl | rfl
  · exact ⟨rfl, rfl, trivial⟩
  · refine ⟨by decide, c2, .inl ?_⟩
    intro r hr
    cases List.mem_singleton.mp hr
    exact ⟨trivial, trivial, trivial⟩
  · exact ⟨rfl, by decide, exReq_sendable _, trivial, trivial⟩
  · trivial
  · trivial
  · exact ⟨by decide, c1, .inl (by simp)⟩

/-- A Heartbeat Request arrives, rx_msg_cb() closes the endpoint, and later binds it again. -/
def exCloseInRx : List Op :=
  exSend ++ [.rx exRemote exOctets [{ onRx := .close (.setSeq 5 .done) }], .app (.bind true (.tx exReq true .done .done))]

/-- The hypotheses are met; the pending request is gone. -/
example : (∀ op ∈ exCloseInRx, op.Tame (· = 7) (.v4 (.inet 0x7f000002 0))) ∧
    obs 0 (exec exCloseInRx exEp) = some ([(exRemote, exOctets)], [], 1, 1, [3], []) := by
  refine ⟨?_, by set_option maxRecDepth 100000 in rfl⟩
  have c1 : Covered exOctets := by
    have := C72_framed_covered [exOctets] (by intro m hm; cases List.mem_singleton.mp hm; exact ⟨by decide, by decide, by decide, by decide⟩)
    simpa using this
  have c2 : Asks exOctets := by
    have key : ∀ i, Begins exOctets i → i = 0 ∨ 16 ≤ i := by
      intro i h
      induction h with
      | first => exact .inl rfl
      | @next i _ ih =>
        rcases ih with rfl | ih
        · exact .inr (by decide)
        · exact .inr (by omega)
    intro i h
    rcases key i h with rfl | h
    · decide
    · rw [List.drop_eq_nil_of_le (show exOctets.length ≤ i from h)]
      decide
  intro op hop
  simp only [exCloseInRx, exSend, List.cons_append, List.nil_append, List.mem_cons, List.not_mem_nil, or_false] at hop
  rcases hop with rfl | rfl | rfl
  · exact ⟨rfl, by decide, exReq_sendable _, trivial, trivial⟩
  · refine ⟨by decide, c1, .inr ⟨c2, ?_⟩⟩
    intro r hr
    cases List.mem_singleton.mp hr
    exact ⟨trivial, trivial, rfl, trivial⟩
  · exact ⟨rfl, by decide, exReq_sendable _, trivial, trivial⟩

end Verif.Props
