/-
Model of src/libosmo-pfcp/pfcp_msg.c: PFCP header, encoding and decoding of messages and bundles,
allocation, sequence numbers.  (The IP address and Node ID helpers are in Ies.lean.)
-/
import Verif.Tables

namespace Verif

/-! ### Message types -/

/-- `osmo_pfcp_msgtype_is_response()` (pfcp_msg.c:44-63), with the numbers of pfcp_proto.h. -/
def isResponseType (type : Nat) : Bool :=
  type = 2 ∨ type = 4 ∨ type = 6 ∨ type = 8 ∨ type = 10 ∨ type = 11 ∨ type = 13 ∨ type = 15
    ∨ type = 51 ∨ type = 53 ∨ type = 55 ∨ type = 57

/-! ### struct osmo_pfcp_msg -/

/-- `struct osmo_pfcp_header_parsed` (pfcp_msg.h:54-62) -/
structure Hdr where
  version : Nat := 1
  type : Nat := 0
  seq : Nat := 0
  prioPresent : Bool := false
  prio : Nat := 0
  seidPresent : Bool := false
  seid : Nat := 0
  deriving DecidableEq, Repr

/-- What `m->ctx.resp_cb` points to: a function of the application, or on_pfcp_assoc_resp()
(pfcp_cp_peer.c:206-235). -/
inductive Cb where
  | app (n : Nat)
  | assoc
  deriving DecidableEq, Repr

/-- The context that a message carries for the application (pfcp_msg.h:117-138): pointers are
numbers, `none` is NULL.  A use count is the pair of the use count and the token. -/
structure Ctx where
  peerFi : Option Nat := none
  peerUse : Option (Nat × Nat) := none
  sessionFi : Option Nat := none
  sessionUse : Option (Nat × Nat) := none
  respCb : Option Cb := none
  priv : Nat := 0
  deriving DecidableEq, Repr

/-- The use counts that a message holds (pfcp_msg.h:117-138). -/
def Ctx.uses (c : Ctx) : List (Nat × Nat) := c.sessionUse.toList ++ c.peerUse.toList

/-- `struct osmo_pfcp_msg` (pfcp_msg.h:96-142).  `causeAt`, `nodeIdAt` stand for `ofs_cause`,
`ofs_node_id`: the position of the entry in the coding table, which is that of the member in `ies`;
0 is `none`.  `encoded` is the msgb with the encoded message, if there is one. -/
structure PMsg where
  remote : Sockaddr
  rx : Bool := false
  isResponse : Bool := false
  h : Hdr := {}
  causeAt : Option Nat := none
  nodeIdAt : Option Nat := none
  ies : Struct IeVal := []
  ctx : Ctx := {}
  encoded : Option (List UInt8) := none

/-- The loop of `osmo_pfcp_msg_set_memb_ofs()` (pfcp_msg.c:208-213). -/
def membOfs : List (Coding IeVal) → (idx : Nat) → (cause nodeId : Option Nat) → Option Nat × Option Nat
  | [], _, cause, nodeId => (cause, nodeId)
  | c :: cs, idx, cause, nodeId =>
    if cause = none ∨ nodeId = none then
      membOfs cs (idx + 1) (if c.ti.tag = 19 then some idx else cause)
        (if c.ti.tag = 60 then some idx else nodeId)
    else (cause, nodeId)

/-- `osmo_pfcp_msg_set_memb_ofs()` (pfcp_msg.c:201-214), for a message type. -/
def membOfsOf (type : Nat) : Option Nat × Option Nat :=
  match msgCoding type with
  | none => (none, none)
  | some mc => membOfs mc 0 none none

/-- `osmo_pfcp_msg_cause()` (pfcp_msg.h:174-177): `none` is NULL, otherwise what the member holds. -/
def PMsg.cause (m : PMsg) : Option (List (Val IeVal)) := m.causeAt.bind fun i => m.ies[i]?

/-- `osmo_pfcp_msg_node_id()` (pfcp_msg.h:179-182). -/
def PMsg.nodeId (m : PMsg) : Option (List (Val IeVal)) := m.nodeIdAt.bind fun i => m.ies[i]?

/-! ### Encoding -/

/-- A `struct msgb` with the layer pointers that matter here, as offsets from `data`. -/
structure Buf where
  b : Msgb
  l3h : Option Nat := none
  l4h : Option Nat := none

/-- The first octet of the header: version, follow on, priority present, SEID present
(`struct osmo_pfcp_header_common`, pfcp_msg.c:65-81; bits 5-7, 2, 1, 0). -/
def headerFlags (h : Hdr) : UInt8 :=
  UInt8.ofNat (h.version % 8 * 32 + (if h.prioPresent then 2 else 0) + (if h.seidPresent then 1 else 0))

/-- sizeof(struct osmo_pfcp_header_seid) or sizeof(struct osmo_pfcp_header_no_seid) -/
def headerLen (seidPresent : Bool) : Nat := if seidPresent then 16 else 8

/-- What `enc_pfcp_header()` (pfcp_msg.c:158-199) writes.  Simplification: octets and bits that it
does not write (spare ones, and the priority if not present) are zero, as the buffer is
(`msgb_alloc()` zero-fills). -/
def headerOctets (h : Hdr) : List UInt8 :=
  [headerFlags h, UInt8.ofNat h.type] ++ storeBE 2 (headerLen h.seidPresent - 4) ++
  (if h.seidPresent then
    storeBE 8 h.seid ++ storeBE 3 h.seq ++ [UInt8.ofNat (if h.prioPresent then h.prio % 16 else 0)]
  else storeBE 3 h.seq ++ [0])

/-- `enc_pfcp_header()` (pfcp_msg.c:158-199). -/
def encHeader (h : Hdr) (b : Msgb) : Out Msgb :=
  (b.put (headerOctets h)).bind fun b =>
  if ¬ h.seidPresent ∧ h.prioPresent then .err .EINVAL b else .ok b

/-- `pfcp_header_set_message_length()` (pfcp_msg.c:138-147) on the header at offset `at`. -/
def setMessageLength (at_ len : Nat) (b : Msgb) : Out Msgb :=
  if len < 4 then .err .EINVAL b
  else if len - 4 > 65535 then .err .EMSGSIZE b
  else .ok { b with data := b.data.take (at_ + 2) ++ storeBE 2 (len - 4) ++ b.data.drop (at_ + 4) }

/-- `c->follow_on = 1` on the currently last message of a bundle (pfcp_msg.c:372-376). -/
def setFollowOn (buf : Buf) : Msgb :=
  match buf.l4h with
  | none => buf.b
  | some o =>
    if o < buf.b.data.length then { buf.b with data := buf.b.data.modify o fun x => x ||| 4 } else buf.b

/-- `osmo_pfcp_msg_encode_tlv()` (pfcp_msg.c:344-351). -/
def encTlv (h : Hdr) (ies : Struct IeVal) (b : Msgb) : Out Msgb :=
  gtlvsEncode t16l16v ies b (msgCoding h.type)

/-- Give a result its layer pointers. -/
def Out.buf (l3h l4h : Option Nat) : Out Msgb → Out Buf
  | .ok b => .ok { b, l3h, l4h }
  | .err e b => .err e { b, l3h, l4h }
  | .abort => .abort
  | .ub => .ub
  | .diverge => .diverge

/-- `osmo_pfcp_msg_encode()` (pfcp_msg.c:367-397). -/
def msgEncode (buf : Buf) (h : Hdr) (ies : Struct IeVal) : Out Buf :=
  let b := setFollowOn buf
  let l3h := match buf.l3h with
    | none => some b.data.length
    | some o => some o
  let l4h := b.data.length
  ((encHeader h b).bind fun b =>
   (encTlv h ies b).bind fun b =>
   setMessageLength l4h (b.data.length - l4h) b).buf l3h (some l4h)

/-! ### Decoding -/

/-- What `osmo_pfcp_msg_decode_header()` returns: the header, `is_response`, the member offsets, the
TLV window (memory from `tlv->src.data` on, and `tlv->src.len`) and the message length. -/
structure DecHdr where
  h : Hdr
  isResponse : Bool
  causeAt : Option Nat
  nodeIdAt : Option Nat
  tlvMem : List UInt8
  tlvLen : Nat
  msgLen : Nat
  deriving DecidableEq, Repr

/-- `osmo_pfcp_msg_decode_header()` (pfcp_msg.c:242-324) for `data` = the memory from
`pfcp_msg_data` on (`none` is NULL), and `len` = `pfcp_msg_data_len`.  `message_length - header_len`
(line 296) is computed in 32 bit unsigned arithmetic. -/
def decodeHeader (data : Option (List UInt8)) (len : Nat) : Res DecHdr :=
  match data with
  | none => .err .EINVAL
  | some mem =>
    if len = 0 then .err .EINVAL
    else if len < 4 then .err .EINVAL
    else
      (rd mem 0).bind fun flags =>
      let seidPresent := flag flags.toNat 1
      let prioPresent := flag flags.toNat 2
      let hl := headerLen seidPresent
      if len < hl then .err .EINVAL
      else
        (rd mem 1).bind fun type =>
        (rdN mem 2 2).bind fun lenOctets =>
        let msgLen := loadBE lenOctets + 4
        if msgLen > len then .err .EMSGSIZE
        else
          let ofs := membOfsOf type.toNat
          let result (h : Hdr) : DecHdr :=
            { h := h
              isResponse := isResponseType type.toNat
              causeAt := ofs.1
              nodeIdAt := ofs.2
              tlvMem := mem.drop hl
              tlvLen := (msgLen + 2 ^ 32 - hl) % 2 ^ 32
              msgLen := msgLen }
          if ¬ seidPresent then
            (rdN mem 4 3).bind fun seq =>
            if prioPresent then .err .EINVAL
            else .ok (result
              { version := flags.toNat / 32, type := type.toNat, seq := loadBE seq, prioPresent, seidPresent })
          else
            (rdN mem 4 8).bind fun seid =>
            (rdN mem 12 3).bind fun seq =>
            (rd mem 15).bind fun p =>
            .ok (result
              { version := flags.toNat / 32, type := type.toNat, seq := loadBE seq, seidPresent, seid := loadBE seid,
                prioPresent, prio := if prioPresent then p.toNat % 16 else 0 })

/-- `osmo_pfcp_msg_decode_tlv()` (pfcp_msg.c:339-342). -/
def decodeTlv (d : DecHdr) : Res (Struct IeVal) :=
  gtlvsDecode { cfg := t16l16v, mem := d.tlvMem, srcLen := d.tlvLen } false (msgCoding d.h.type)

/-- Which data `osmo_pfcp_msg_decode_header()` looks at (pfcp_msg.c:252-258): at l4h, or at l3h if
l4h is NULL.  `slack` is the memory of the msgb behind its data. -/
def Buf.decodeHeader (buf : Buf) (slack : List UInt8) : Res DecHdr :=
  match buf.l4h with
  | some o => Verif.decodeHeader (some (buf.b.data.drop o ++ slack)) (buf.b.data.length - o)
  | none =>
    match buf.l3h with
    | some o => Verif.decodeHeader (some (buf.b.data.drop o ++ slack)) (buf.b.data.length - o)
    | none => Verif.decodeHeader none 0

/-! ### Receiving a bundle -/

/-- A message of a bundle that has been received: `osmo_pfcp_msg_decode_header()` succeeded; `ies` is
the outcome of `osmo_pfcp_msg_decode_tlv()`: `none` is a negative return code. -/
structure Rx where
  hdr : DecHdr
  ies : Option (Struct IeVal)

/-- `msgb_l4len()` (libosmocore): `msgb->tail - msgb->l4h`. -/
def Buf.l4len (buf : Buf) : Nat := buf.b.data.length - buf.l4h.getD 0

/-- The `while (msgb_l4len(msg))` loop (pfcp_endpoint.c:445-461, and the example in pfcp_msg.c:222-235)
without what is done with the messages: the messages of the bundle in the order in which they are
decoded.  l4h is shifted through the bundle.  A header that cannot be decoded ends the loop.  `slack` is the
memory of the msgb behind its data. -/
def rxBundle : (fuel : Nat) → (buf : Buf) → (slack : List UInt8) → Res (List Rx)
  | 0, _, _ => .diverge
  | fuel + 1, buf, slack =>
    if buf.l4len = 0 then .ok []
    else
      match buf.decodeHeader slack with
      | .err _ => .ok []
      | .ok d =>
        let buf := { buf with l4h := buf.l4h.map fun o => o + d.msgLen }
        match decodeTlv d with
        | .ok ies => (rxBundle fuel buf slack).bind fun l => .ok (⟨d, some ies⟩ :: l)
        | .err _ => (rxBundle fuel buf slack).bind fun l => .ok (⟨d, none⟩ :: l)
        | .abort => .abort
        | .ub => .ub
        | .diverge => .diverge
      | .abort => .abort
      | .ub => .ub
      | .diverge => .diverge

/-- The msgb with a received datagram (pfcp_endpoint.c:431-445), when the loop begins. -/
def Buf.received (o : List UInt8) : Buf := { b := ⟨2048, o⟩, l3h := some 0, l4h := some 0 }

/-! ### Allocation -/

/-- A zeroed IE value, e.g. in `(struct osmo_pfcp_msg){}` (pfcp_msg.c:404-409). -/
def IeKind.zero : IeKind → IeVal
  | .cause => .cause 0 | .offendingIe => .offendingIe 0 | .u8 => .u8 0 | .u16 => .u16 0
  | .u32 => .u32 0 | .ifaceType => .ifaceType 0 | .sourceIface => .sourceIface 0
  | .destIface => .destIface 0 | .nodeId => .nodeId (.v4 .unspec)
  | .upFeatures => .upFeatures (List.replicate 6 0) | .cpFeatures => .cpFeatures [0]
  | .fSeid => .fSeid { seid := 0 } | .fTeid => .fTeid (.fixed 0 {}) | .applyAction => .applyAction [0, 0]
  | .networkInst => .networkInst [] | .ohc => .ohc { desc := [0, 0] } | .apr => .apr []
  | .ohr => .ohr { desc := 0 } | .ueIp => .ueIp {}

mutual
/-- The zeroed value of an IE. -/
def Ty.zero : Ty → Val IeVal
  | .ie k => .leaf k.zero
  | .group f => .node f.zero
/-- A zeroed struct: a mandatory member has a (zero) value, optional ones are absent, counts are 0. -/
def Fields.zero : Fields → Struct IeVal
  | .nil => []
  | .cons _ kind ty f => (match kind with | .mand => [ty.zero] | _ => []) :: f.zero
end

/-- `_osmo_pfcp_msg_alloc()` (pfcp_msg.c:401-412). -/
def msgAlloc (remote : Sockaddr) : PMsg := { remote := remote, h := { version := 1 } }

/-- `osmo_pfcp_msg_alloc_rx()` (pfcp_msg.c:414-419). -/
def msgAllocRx (remote : Sockaddr) : PMsg := { msgAlloc remote with rx := true }

/-- `osmo_pfcp_msg_alloc_tx()` (pfcp_msg.c:421-438): `remote = none` is NULL.  The zeroed union of IEs
is seen as the (zeroed) struct of the message type. -/
def msgAllocTx (remote : Option Sockaddr) (inReplyTo : Option PMsg) (type : Nat) : Option PMsg :=
  let addr := match remote, inReplyTo with
    | none, some r => some r.remote
    | a, _ => a
  addr.map fun addr =>
    let ofs := membOfsOf type
    { msgAlloc addr with
      isResponse := isResponseType type
      h := { (msgAlloc addr).h with type := type, seq := match inReplyTo with | some r => r.h.seq | none => 0 }
      causeAt := ofs.1
      nodeIdAt := ofs.2
      ies := match msgFields type with | some f => f.zero | none => [] }

/-- `osmo_pfcp_msg_alloc_tx_req()` (pfcp_msg.c:441-445). -/
def msgAllocTxReq (remote : Sockaddr) (type : Nat) : Option PMsg := msgAllocTx (some remote) none type

/-- `osmo_pfcp_msg_alloc_tx_resp()` (pfcp_msg.c:449-453). -/
def msgAllocTxResp (inReplyTo : PMsg) (type : Nat) : Option PMsg := msgAllocTx none (some inReplyTo) type

/-! ### Sequence numbers and SEIDs -/

/-- `osmo_pfcp_next_seq_nr()` (pfcp_msg.c:478-486): the new state, which is also returned. -/
def nextSeqNr (state : UInt32) : UInt32 :=
  let s := (state + 1) &&& 0xffffff
  if s = 0 then s + 1 else s

/-- `osmo_pfcp_next_seid()` (pfcp_msg.c:488-495). -/
def nextSeid (state : UInt64) : UInt64 :=
  let s := state + 1
  if s = 0 then s + 1 else s

/-! ### Context -/

/-- `osmo_pfcp_msg_invalidate_ctx()` (pfcp_msg.c:552-564). -/
def msgInvalidateCtx (m : PMsg) (deletedFi : Nat) : PMsg :=
  let m := if m.ctx.sessionFi = some deletedFi then
      { m with ctx := { m.ctx with sessionFi := none, sessionUse := none } } else m
  if m.ctx.peerFi = some deletedFi then
      { m with ctx := { m.ctx with peerFi := none, peerUse := none } } else m

end Verif
