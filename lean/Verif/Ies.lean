/-
Model of src/libosmo-pfcp/pfcp_ies_custom.c (the IE value codecs) and of the IP address and Node ID
helpers of src/libosmo-pfcp/pfcp_msg.c.

Integers of C types are natural numbers here; the ranges of the C types appear in the specification
(`Spec.InRange`).  Where C truncates to a field width, so does `storeBE`.
Not modelled: the `osmo_pfcp_enc_to_str_*()` functions (text output for logging).
-/
import Verif.Basic
import Verif.DecEnc

namespace Verif

/-! ### Addresses -/

/-- `struct osmo_sockaddr` (libosmocore): address family with address and port; addresses as the
number that their octets in network byte order are.  Flow info and scope of IPv6 are not modelled. -/
inductive Sockaddr where
  | unspec
  | inet (addr port : Nat)
  | inet6 (addr port : Nat)
  | other (family : Nat)
  deriving DecidableEq, Repr

namespace Sockaddr

/-- `u.sin.sin_family == AF_INET` -/
def isInet : Sockaddr → Bool
  | .inet _ _ => true
  | _ => false

/-- `u.sin6.sin6_family == AF_INET6` -/
def isInet6 : Sockaddr → Bool
  | .inet6 _ _ => true
  | _ => false

/-- `osmo_sockaddr_to_octets(msgb_put(dst, l), l, os)` (libosmocore, trusted; e.g.
pfcp_ies_custom.c:339, 344): the `l` octets that are then in the msgb.  The return code is ignored
by all callers.  Simplification: where nothing is written, the octets are those of the msgb's zeroed
buffer (`msgb_alloc()` zero-fills). -/
def toOctets (l : Nat) : Sockaddr → List UInt8
  | .inet a _ => if 4 ≤ l then storeBE 4 a ++ List.replicate (l - 4) 0 else List.replicate l 0
  | .inet6 a _ => if 16 ≤ l then storeBE 16 a ++ List.replicate (l - 16) 0 else List.replicate l 0
  | _ => List.replicate l 0

/-- `osmo_sockaddr_set_port(.., 0)` (libosmocore, trusted), used in pfcp_msg.c:505, 510. -/
def zeroPort : Sockaddr → Sockaddr
  | .inet a _ => .inet a 0
  | .inet6 a _ => .inet6 a 0
  | s => s

/-- Sign of the difference of two numbers. -/
def cmpNat (a b : Nat) : Int := if a < b then -1 else if b < a then 1 else 0

/-- The address family as a number: AF_UNSPEC 0, AF_INET 2, AF_INET6 10 (Linux). -/
def family : Sockaddr → Nat
  | .unspec => 0
  | .inet _ _ => 2
  | .inet6 _ _ => 10
  | .other f => f

/-- `osmo_sockaddr_cmp()` (libosmocore, trusted), used in pfcp_ies_custom.c:111-113: by family, then
address octets, then port.  Other families are compared by memcmp of the whole struct; as a `Sockaddr`
of such a family has no further contents here, that is 0. -/
def cmp (a b : Sockaddr) : Int :=
  if cmpNat a.family b.family ≠ 0 then cmpNat a.family b.family
  else
    match a, b with
    | .inet x p, .inet y q => if cmpNat x y ≠ 0 then cmpNat x y else cmpNat p q
    | .inet6 x p, .inet6 y q => if cmpNat x y ≠ 0 then cmpNat x y else cmpNat p q
    | _, _ => 0

end Sockaddr

/-- `struct osmo_pfcp_ip_addrs` (pfcp_ies_custom.h). -/
structure IpAddrs where
  v4Present : Bool := false
  v4 : Sockaddr := .unspec
  v6Present : Bool := false
  v6 : Sockaddr := .unspec
  deriving DecidableEq, Repr

namespace IpAddrs

/-- `osmo_pfcp_ip_addrs_set()` (pfcp_msg.c:499-515). -/
def set (dst : IpAddrs) (addr : Sockaddr) : Out IpAddrs :=
  match addr with
  | .inet _ _ => .ok { dst with v4Present := true, v4 := addr.zeroPort }
  | .inet6 _ _ => .ok { dst with v6Present := true, v6 := addr.zeroPort }
  | _ => .err .ENOTSUP dst

/-- `osmo_pfcp_ip_addrs_get()` (pfcp_msg.c:517-532): `none` is a NULL output pointer. -/
def get (v4 v6 : Option Sockaddr) (src : IpAddrs) : Option Sockaddr × Option Sockaddr :=
  (v4.map fun _ => if src.v4Present then src.v4 else .unspec,
   v6.map fun _ => if src.v6Present then src.v6 else .unspec)

/-- `struct osmo_sockaddr_str`, abstractly: empty, or the text form of an address. -/
inductive AddrStr where
  | empty
  | text (a : Sockaddr)
  | garbage (n : Nat)    -- whatever the caller had there
  deriving DecidableEq, Repr

/-- `osmo_sockaddr_str_from_sockaddr()` (libosmocore, trusted): fails unless IPv4 or IPv6; writes an
empty string first. -/
def strFrom (a : Sockaddr) : Out AddrStr :=
  match a with
  | .inet _ _ => .ok (.text a)
  | .inet6 _ _ => .ok (.text a)
  | _ => .err .EINVAL .empty

/-- `osmo_pfcp_ip_addrs_get_str()` (pfcp_msg.c:534-547).  Note the `return` in the v4 branch: the v6
output is not written then. -/
def getStr (v4 v6 : Option AddrStr) (src : IpAddrs) : Out (Option AddrStr × Option AddrStr) :=
  let v6step (v4 : Option AddrStr) : Out (Option AddrStr × Option AddrStr) :=
    match v6 with
    | none => .ok (v4, none)
    | some _ =>
      if src.v6Present then
        match strFrom src.v6 with
        | .ok s => .ok (v4, some s)
        | .err e s => .err e (v4, some s)
        | .abort => .abort
        | .ub => .ub
        | .diverge => .diverge
      else .ok (v4, some .empty)
  match v4 with
  | none => v6step none
  | some _ =>
    if src.v4Present then
      match strFrom src.v4 with
      | .ok s => .ok (some s, v6)
      | .err e s => .err e (some s, v6)
      | .abort => .abort
      | .ub => .ub
      | .diverge => .diverge
    else v6step (some .empty)

end IpAddrs

/-! ### IE values -/

/-- `struct osmo_pfcp_ie_node_id` (pfcp_ies_custom.h:50-57): the type selects the union member.
`other t` is a struct with an invalid type.  A `char fqdn[254]` is represented by the octets before
its NUL. -/
inductive NodeId where
  | v4 (ip : Sockaddr)
  | v6 (ip : Sockaddr)
  | fqdn (s : List UInt8)
  | other (type : Nat)
  deriving DecidableEq, Repr

/-- `struct osmo_pfcp_ie_f_seid` -/
structure FSeid where
  seid : Nat
  ip : IpAddrs := {}
  deriving DecidableEq, Repr

/-- `struct osmo_pfcp_ie_f_teid`: the choose flag selects the union member. -/
inductive FTeid where
  | fixed (teid : Nat) (ip : IpAddrs)
  | choose (ipv4 ipv6 idPresent : Bool) (id : Nat)
  deriving DecidableEq, Repr

/-- `struct osmo_pfcp_ie_outer_header_creation` -/
structure Ohc where
  desc : List UInt8
  teidPresent : Bool := false
  teid : Nat := 0
  ip : IpAddrs := {}
  portPresent : Bool := false
  port : Nat := 0
  cTagPresent : Bool := false
  cTag : Nat := 0
  sTagPresent : Bool := false
  sTag : Nat := 0
  deriving DecidableEq, Repr

/-- `struct osmo_pfcp_ie_outer_header_removal` -/
structure Ohr where
  desc : Nat
  extPresent : Bool := false
  ext : Nat := 0
  deriving DecidableEq, Repr

/-- `struct osmo_pfcp_ie_ue_ip_address` -/
structure UeIp where
  chv6 : Bool := false
  chv4 : Bool := false
  isDest : Bool := false
  ip : IpAddrs := {}
  delegPresent : Bool := false
  deleg : Nat := 0
  plenPresent : Bool := false
  plen : Nat := 0
  deriving DecidableEq, Repr

/-- The kinds of IE values: one per pair of `osmo_pfcp_dec_*()`, `osmo_pfcp_enc_*()`. -/
inductive IeKind where
  | cause | offendingIe | u8 | u16 | u32 | ifaceType | sourceIface | destIface | nodeId
  | upFeatures | cpFeatures | fSeid | fTeid | applyAction | networkInst | ohc | apr | ohr | ueIp
  deriving DecidableEq, Repr

/-- An IE value in its decoded form.  Bit fields are lists of octets. -/
inductive IeVal where
  | cause (v : Nat)
  | offendingIe (v : Nat)
  | u8 (v : Nat)
  | u16 (v : Nat)
  | u32 (v : Nat)
  | ifaceType (v : Nat)
  | sourceIface (v : Nat)
  | destIface (v : Nat)
  | nodeId (v : NodeId)
  | upFeatures (bits : List UInt8)
  | cpFeatures (bits : List UInt8)
  | fSeid (v : FSeid)
  | fTeid (v : FTeid)
  | applyAction (bits : List UInt8)
  | networkInst (s : List UInt8)
  | ohc (v : Ohc)
  | apr (s : List UInt8)
  | ohr (v : Ohr)
  | ueIp (v : UeIp)
  deriving DecidableEq, Repr

/-- Which codec a value belongs to. -/
def IeVal.kind : IeVal → IeKind
  | .cause _ => .cause | .offendingIe _ => .offendingIe | .u8 _ => .u8 | .u16 _ => .u16
  | .u32 _ => .u32 | .ifaceType _ => .ifaceType | .sourceIface _ => .sourceIface
  | .destIface _ => .destIface | .nodeId _ => .nodeId | .upFeatures _ => .upFeatures
  | .cpFeatures _ => .cpFeatures | .fSeid _ => .fSeid | .fTeid _ => .fTeid
  | .applyAction _ => .applyAction | .networkInst _ => .networkInst | .ohc _ => .ohc
  | .apr _ => .apr | .ohr _ => .ohr | .ueIp _ => .ueIp

/-! ### Reading -/

/-- A read position inside an IE value: the memory from `pos` on, and `tlv->len - (pos - tlv->val)`. -/
structure Cur where
  mem : List UInt8
  rem : Nat
  deriving DecidableEq, Repr

/-- `ENSURE_REMAINING_LENGTH_IS_AT_LEAST(name, pos, k)`; `k` octets are read from `pos`; `pos += k`
(pfcp_ies_custom.c:76-83 and e.g. 595-597). -/
def Cur.raw (k : Nat) (c : Cur) : Res (List UInt8 × Cur) :=
  if c.rem < k then .err .EINVAL
  else (rdN c.mem 0 k).bind fun o => .ok (o, ⟨c.mem.drop k, c.rem - k⟩)

/-- The same for a big-endian number. -/
def Cur.num (k : Nat) (c : Cur) : Res (Nat × Cur) :=
  (c.raw k).bind fun (o, c) => .ok (loadBE o, c)

/-- A number that is there only if a flag says so; the zeroed struct member remains otherwise. -/
def Cur.opt (present : Bool) (k : Nat) (c : Cur) : Res (Nat × Cur) :=
  if present then c.num k else .ok (0, c)

/-- `osmo_sockaddr_from_octets(.., 4)` (libosmocore, trusted) of an address that is there only if a
flag says so. -/
def Cur.v4 (present : Bool) (c : Cur) : Res (Sockaddr × Cur) :=
  if present then (c.num 4).bind fun (a, c) => .ok (.inet a 0, c) else .ok (.unspec, c)

/-- `osmo_sockaddr_from_octets(.., 16)` (libosmocore, trusted), likewise. -/
def Cur.v6 (present : Bool) (c : Cur) : Res (Sockaddr × Cur) :=
  if present then (c.num 16).bind fun (a, c) => .ok (.inet6 a 0, c) else .ok (.unspec, c)

/-- `(bool)(flags & mask)` -/
def flag (flags mask : Nat) : Bool := decide (flags &&& mask ≠ 0)

/-- `osmo_pfcp_bits_get()` (pfcp_ies_custom.c:392-398). -/
def bitsGet (bits : List UInt8) (bitpos : Nat) : Res Bool :=
  (rd bits (bitpos / 8)).bind fun b => .ok (flag b.toNat (1 <<< (bitpos % 8)))

/-- `osmo_pfcp_bits_set()` (pfcp_ies_custom.c:400-409); `~bitmask` of the 32 bit unsigned int is
converted to the octet. -/
def bitsSet (bits : List UInt8) (bitpos : Nat) (val : Bool) : Res (List UInt8) :=
  (rd bits (bitpos / 8)).bind fun b =>
    let mask := UInt8.ofNat (1 <<< (bitpos % 8))
    .ok (bits.set (bitpos / 8) (if val then b ||| mask else b &&& ~~~mask))

/-! ### Domain names (libosmocore apn.c, trusted) -/

/-- '.' -/
def dot : UInt8 := 46

/-- The octets before the first NUL. -/
def cstr (s : List UInt8) : List UInt8 := s.takeWhile (· ≠ 0)

/-- `osmo_apn_to_str()` (libosmocore, trusted): the octets written to the output, without the final
NUL; NULL is -EINVAL. -/
def apnToStr (p : List UInt8) (rest : Nat) : Res (List UInt8) :=
  if rest = 0 then .ok []
  else
    match rd p 0 with
    | .ok l =>
      if l = 0 then .ok []
      else if rest < l.toNat + 1 then .err .EINVAL
      else
        (rdN p 1 l.toNat).bind fun label =>
        (apnToStr (p.drop (l.toNat + 1)) (rest - (l.toNat + 1))).bind fun t =>
        .ok (label ++ (if rest - (l.toNat + 1) ≠ 0 then dot :: t else t))
    | _ => .ub
termination_by rest

/-- The labels that `osmo_apn_from_str()` (libosmocore, trusted) writes; `label` is the part of the
current label read so far. -/
def apnLabels (label : List UInt8) : List UInt8 → List UInt8
  | [] => UInt8.ofNat label.length :: label
  | c :: s => if c = dot then UInt8.ofNat label.length :: label ++ apnLabels [] s
              else apnLabels (label ++ [c]) s

/-- `osmo_apn_from_str()` into `max` octets (libosmocore, trusted); `none` is a negative result. -/
def apnFromStr (max : Nat) (s : List UInt8) : Option (List UInt8) :=
  if max < s.length + 1 then none else some (apnLabels [] s)

/-- Decode a name into `char out[254]`: the length range check and `osmo_apn_to_str()`
(pfcp_ies_custom.c:319-322, 716-718).  Writing past the array is undefined behaviour. -/
def decName (c : Cur) : Res (List UInt8) :=
  if c.rem < 1 ∨ 254 < c.rem then .err .ERANGE
  else (apnToStr c.mem c.rem).bind fun s => if 254 < s.length + 1 then .ub else .ok (cstr s)

/-- Encode a name: `osmo_apn_from_str()` to the tailroom, then `msgb_put()`
(pfcp_ies_custom.c:346-349, 727-730). -/
def encName (s : List UInt8) (b : Msgb) : Out Msgb :=
  match apnFromStr b.tailroom s with
  | none => .err .EINVAL b
  | some o => b.put o

/-! ### Decoders -/

/-- `ENSURE_LENGTH_IS_EXACTLY(k)`, then read a number (pfcp_ies_custom.c:125-131, 146-152). -/
def decExact (k : Nat) (c : Cur) : Res Nat :=
  if c.rem ≠ k then .err .EINVAL else (c.num k).bind fun (v, _) => .ok v

/-- `ENSURE_LENGTH_IS_AT_LEAST(k)`, then read a number (pfcp_ies_custom.c:167-173, 188-194, 209-215,
230-236, 251-257, 272-278). -/
def decAtLeast (k : Nat) (c : Cur) : Res Nat := (c.num k).bind fun (v, _) => .ok v

/-- `memcpy` of as many octets as there are into a zeroed array of `k` octets
(pfcp_ies_custom.c:431-439, 690-697). -/
def decBits (k : Nat) (c : Cur) : Res (List UInt8) :=
  (rdN c.mem 0 (min k c.rem)).bind fun o => .ok (o ++ List.replicate (k - o.length) 0)

/-- `osmo_pfcp_dec_node_id()` (pfcp_ies_custom.c:293-328).  `enum osmo_pfcp_node_id_type` is 0 IPv4,
1 IPv6, 2 FQDN (pfcp_proto.h). -/
def decNodeId (c : Cur) : Res NodeId :=
  (c.num 1).bind fun (type, c) =>
  if type = 0 then
    if c.rem ≠ 4 then .err .EINVAL else (c.num 4).bind fun (a, _) => .ok (.v4 (.inet a 0))
  else if type = 1 then
    if c.rem ≠ 16 then .err .EINVAL else (c.num 16).bind fun (a, _) => .ok (.v6 (.inet6 a 0))
  else if type = 2 then (decName c).bind fun s => .ok (.fqdn s)
  else .err .EINVAL

/-- `osmo_pfcp_dec_f_seid()` (pfcp_ies_custom.c:476-504). -/
def decFSeid (c : Cur) : Res FSeid :=
  if c.rem < 9 then .err .EINVAL
  else
    (c.num 1).bind fun (flags, c) =>
    let v6Present := flag flags 1
    let v4Present := flag flags 2
    (c.num 8).bind fun (seid, c) =>
    (c.v4 v4Present).bind fun (v4, c) =>
    (c.v6 v6Present).bind fun (v6, _) =>
    .ok { seid := seid, ip := { v4Present, v4, v6Present, v6 } }

/-- `osmo_pfcp_dec_f_teid()` (pfcp_ies_custom.c:570-619). -/
def decFTeid (c : Cur) : Res FTeid :=
  (c.num 1).bind fun (flags, c) =>
  if ¬ flag flags 4 then
    let v4Present := flag flags 1
    let v6Present := flag flags 2
    (c.num 4).bind fun (teid, c) =>
    (c.v4 v4Present).bind fun (v4, c) =>
    (c.v6 v6Present).bind fun (v6, _) =>
    .ok (.fixed teid { v4Present, v4, v6Present, v6 })
  else
    (c.opt (flag flags 8) 1).bind fun (id, _) =>
    .ok (.choose (flag flags 1) (flag flags 2) (flag flags 8) id)

/-- Which parts of an Outer Header Creation IE the description announces: TEID, IPv4, IPv6, port,
C-TAG, S-TAG (pfcp_ies_custom.c:757-778, 803-834; enum osmo_pfcp_outer_header_creation). -/
structure OhcParts where
  teid : Bool
  v4 : Bool
  v6 : Bool
  port : Bool
  cTag : Bool
  sTag : Bool
  deriving DecidableEq, Repr

/-- The evaluation of the description bits (pfcp_ies_custom.c:759-766, 827-834). -/
def ohcParts (desc : List UInt8) : Res OhcParts :=
  (bitsGet desc 0).bind fun gtpUUdpIpv4 =>
  (bitsGet desc 2).bind fun udpIpv4 =>
  (bitsGet desc 4).bind fun ipv4 =>
  (bitsGet desc 1).bind fun gtpUUdpIpv6 =>
  (bitsGet desc 3).bind fun udpIpv6 =>
  (bitsGet desc 5).bind fun ipv6 =>
  (bitsGet desc 6).bind fun cTag =>
  (bitsGet desc 7).bind fun sTag =>
  .ok { teid := gtpUUdpIpv4 || gtpUUdpIpv6
        v4 := gtpUUdpIpv4 || udpIpv4 || ipv4
        v6 := gtpUUdpIpv6 || udpIpv6 || ipv6
        port := udpIpv4 || udpIpv6
        cTag := cTag
        sTag := sTag }

/-- `osmo_pfcp_dec_outer_header_creation()` (pfcp_ies_custom.c:741-810). -/
def decOhc (c : Cur) : Res Ohc :=
  (c.raw 2).bind fun (desc, c) =>
  (ohcParts desc).bind fun parts =>
  (c.opt parts.teid 4).bind fun (teid, c) =>
  (c.v4 parts.v4).bind fun (v4, c) =>
  (c.v6 parts.v6).bind fun (v6, c) =>
  (c.opt parts.port 2).bind fun (port, c) =>
  (c.opt parts.cTag 3).bind fun (cTag, c) =>
  (c.opt parts.sTag 3).bind fun (sTag, _) =>
  .ok { desc := desc, teidPresent := parts.teid, teid := teid
        ip := { v4Present := parts.v4, v4, v6Present := parts.v6, v6 }
        portPresent := parts.port, port := port
        cTagPresent := parts.cTag, cTag := cTag, sTagPresent := parts.sTag, sTag := sTag }

/-- `strlen()` and the string: undefined behaviour if the memory ends before a NUL. -/
def readCStr (p : List UInt8) : Res (List UInt8) := if 0 ∈ p then .ok (cstr p) else .ub

/-- `osmo_pfcp_dec_activate_predefined_rules()` (pfcp_ies_custom.c:910-915): `osmo_strlcpy()`
(libosmocore, trusted) first takes `strlen()` of the source, which has no NUL of its own, then copies
at most the given size minus one octets. -/
def decApr (c : Cur) : Res (List UInt8) :=
  (readCStr c.mem).bind fun s => .ok (s.take (min 256 (c.rem + 1) - 1))

/-- `osmo_pfcp_dec_outer_header_removal()` (pfcp_ies_custom.c:933-945). -/
def decOhr (c : Cur) : Res Ohr :=
  (c.num 1).bind fun (desc, c) =>
  if 0 < c.rem then (c.num 1).bind fun (ext, _) => .ok { desc := desc, extPresent := true, ext := ext }
  else .ok { desc := desc }

/-- `osmo_pfcp_dec_ue_ip_address()` (pfcp_ies_custom.c:969-1012). -/
def decUeIp (c : Cur) : Res UeIp :=
  (c.num 1).bind fun (flags, c) =>
  let plenPresent := flag flags 64
  let chv6 := flag flags 32
  let chv4 := flag flags 16
  let delegPresent := flag flags 8
  let isDest := flag flags 4
  let v4Present := flag flags 2
  let v6Present := flag flags 1
  (c.v4 v4Present).bind fun (v4, c) =>
  (c.v6 v6Present).bind fun (v6, c) =>
  (c.opt delegPresent 1).bind fun (deleg, c) =>
  (c.opt plenPresent 1).bind fun (plen, _) =>
  .ok { chv6, chv4, isDest, ip := { v4Present, v4, v6Present, v6 }, delegPresent, deleg,
        plenPresent, plen }

/-- The decoder of each kind of IE, applied to a value of `n` octets at the memory `p`.
Lines of pfcp_ies_custom.c: cause 125-131, offending_ie 146-152, 8 167-173, 16be 188-194, 32be
209-215, 3gpp_iface_type 230-236, source_iface 251-257, dest_iface 272-278,
up_function_features 431-439, cp_function_features 454-460, apply_action 690-697,
network_inst 713-720; the others see above. -/
def ieDec (k : IeKind) (p : List UInt8) (n : Nat) : Res IeVal :=
  let c : Cur := ⟨p, n⟩
  match k with
  | .cause => (decExact 1 c).bind fun v => .ok (.cause v)
  | .offendingIe => (decExact 2 c).bind fun v => .ok (.offendingIe v)
  | .u8 => (decAtLeast 1 c).bind fun v => .ok (.u8 v)
  | .u16 => (decAtLeast 2 c).bind fun v => .ok (.u16 v)
  | .u32 => (decAtLeast 4 c).bind fun v => .ok (.u32 v)
  | .ifaceType => (decAtLeast 1 c).bind fun v => .ok (.ifaceType (v &&& 0x3f))
  | .sourceIface => (decAtLeast 1 c).bind fun v => .ok (.sourceIface (v &&& 0xf))
  | .destIface => (decAtLeast 1 c).bind fun v => .ok (.destIface (v &&& 0xf))
  | .nodeId => (decNodeId c).bind fun v => .ok (.nodeId v)
  | .upFeatures => (decBits 6 c).bind fun v => .ok (.upFeatures v)
  | .cpFeatures => (c.raw 1).bind fun (v, _) => .ok (.cpFeatures v)
  | .fSeid => (decFSeid c).bind fun v => .ok (.fSeid v)
  | .fTeid => (decFTeid c).bind fun v => .ok (.fTeid v)
  | .applyAction => if n < 1 then .err .EINVAL else (decBits 2 c).bind fun v => .ok (.applyAction v)
  | .networkInst => (decName c).bind fun v => .ok (.networkInst v)
  | .ohc => (decOhc c).bind fun v => .ok (.ohc v)
  | .apr => (decApr c).bind fun v => .ok (.apr v)
  | .ohr => (decOhr c).bind fun v => .ok (.ohr v)
  | .ueIp => (decUeIp c).bind fun v => .ok (.ueIp v)

/-! ### Encoders -/

/-- `msgb_put_u8()`, `msgb_put_u16()`, `msgb_put_u32()`, `osmo_store64be(v, msgb_put(dst, 8))`,
`osmo_store32be_ext(v, msgb_put(dst, 3), 3)` -/
def Msgb.num (k v : Nat) (b : Msgb) : Out Msgb := b.put (storeBE k v)

/-- `if (present) msgb_put_..()` -/
def Msgb.opt (present : Bool) (k v : Nat) (b : Msgb) : Out Msgb := if present then b.num k v else .ok b

/-- `if (present) { if (family differs) return -EINVAL; osmo_sockaddr_to_octets(..); }`
(e.g. pfcp_ies_custom.c:514-529). -/
def Msgb.addr (present : Bool) (familyOk : Sockaddr → Bool) (l : Nat) (a : Sockaddr) (b : Msgb) : Out Msgb :=
  if present then
    if familyOk a then b.put (a.toOctets l) else .err .EINVAL b
  else .ok b

/-- `if (announced != present) return -EINVAL; if (present) ..` (pfcp_ies_custom.c:836-876). -/
def Msgb.agree (announced present : Bool) (o : List UInt8) (b : Msgb) : Out Msgb :=
  if announced ≠ present then .err .EINVAL b
  else if present then b.put o else .ok b

/-- `osmo_pfcp_enc_node_id()` (pfcp_ies_custom.c:330-355). -/
def encNodeId (v : NodeId) (b : Msgb) : Out Msgb :=
  match v with
  | .v4 a => (b.num 1 0).bind fun b => b.put (a.toOctets 4)
  | .v6 a => (b.num 1 1).bind fun b => b.put (a.toOctets 16)
  | .fqdn s => (b.num 1 2).bind fun b => encName s b
  | .other t => (b.num 1 t).bind fun b => .err .EINVAL b

/-- `osmo_pfcp_enc_f_seid()` (pfcp_ies_custom.c:506-530). -/
def encFSeid (v : FSeid) (b : Msgb) : Out Msgb :=
  let flags := (if v.ip.v6Present then 1 else 0) + (if v.ip.v4Present then 2 else 0)
  (b.num 1 flags).bind fun b =>
  (b.num 8 v.seid).bind fun b =>
  (b.addr v.ip.v4Present Sockaddr.isInet 4 v.ip.v4).bind fun b =>
  b.addr v.ip.v6Present Sockaddr.isInet6 16 v.ip.v6

/-- `osmo_pfcp_enc_f_teid()` (pfcp_ies_custom.c:621-659). -/
def encFTeid (v : FTeid) (b : Msgb) : Out Msgb :=
  match v with
  | .fixed teid ip =>
    let flags := 0 ||| ((if ip.v4Present then 1 else 0) + (if ip.v6Present then 2 else 0))
    (b.num 1 flags).bind fun b =>
    (b.num 4 teid).bind fun b =>
    (b.addr ip.v4Present Sockaddr.isInet 4 ip.v4).bind fun b =>
    b.addr ip.v6Present Sockaddr.isInet6 16 ip.v6
  | .choose ipv4 ipv6 idPresent id =>
    let flags := 4 ||| ((if ipv4 then 1 else 0) + (if ipv6 then 2 else 0) + (if idPresent then 8 else 0))
    (b.num 1 flags).bind fun b =>
    b.opt idPresent 1 id

/-- `osmo_pfcp_enc_outer_header_creation()` (pfcp_ies_custom.c:812-878). -/
def encOhc (v : Ohc) (b : Msgb) : Out Msgb :=
  (b.put v.desc).bind fun b =>
  match ohcParts v.desc with
  | .ok parts =>
    (b.agree parts.teid v.teidPresent (storeBE 4 v.teid)).bind fun b =>
    (b.agree parts.v4 v.ip.v4Present (v.ip.v4.toOctets 4)).bind fun b =>
    (b.agree parts.v6 v.ip.v6Present (v.ip.v6.toOctets 16)).bind fun b =>
    (b.agree parts.port v.portPresent (storeBE 2 v.port)).bind fun b =>
    (b.agree parts.cTag v.cTagPresent (storeBE 3 v.cTag)).bind fun b =>
    b.agree parts.sTag v.sTagPresent (storeBE 3 v.sTag)
  | _ => .ub

/-- `osmo_pfcp_enc_outer_header_removal()` (pfcp_ies_custom.c:947-957). -/
def encOhr (v : Ohr) (b : Msgb) : Out Msgb :=
  (b.num 1 v.desc).bind fun b => b.opt v.extPresent 1 v.ext

/-- `osmo_pfcp_enc_ue_ip_address()` (pfcp_ies_custom.c:1014-1054). -/
def encUeIp (v : UeIp) (b : Msgb) : Out Msgb :=
  let flags := 0
    ||| (if v.plenPresent then 64 else 0)
    ||| (if v.chv6 then 32 else 0)
    ||| (if v.chv4 then 16 else 0)
    ||| (if v.delegPresent then 8 else 0)
    ||| (if v.isDest then 4 else 0)
    ||| (if v.ip.v4Present then 2 else 0)
    ||| (if v.ip.v6Present then 1 else 0)
  (b.num 1 flags).bind fun b =>
  (b.addr v.ip.v4Present Sockaddr.isInet 4 v.ip.v4).bind fun b =>
  (b.addr v.ip.v6Present Sockaddr.isInet6 16 v.ip.v6).bind fun b =>
  (b.opt v.delegPresent 1 v.deleg).bind fun b =>
  b.opt v.plenPresent 1 v.plen

/-- The encoder of each kind of IE.  Lines of pfcp_ies_custom.c: cause 133-138, offending_ie 154-159,
8 175-180, 16be 196-201, 32be 217-222, 3gpp_iface_type 238-243, source_iface 259-264, dest_iface
280-285, up_function_features 441-446, cp_function_features 462-468, apply_action 699-705,
network_inst 722-732, activate_predefined_rules 917-924; the others see above. -/
def ieEnc (v : IeVal) (b : Msgb) : Out Msgb :=
  match v with
  | .cause v => b.num 1 v
  | .offendingIe v => b.num 2 v
  | .u8 v => b.num 1 v
  | .u16 v => b.num 2 v
  | .u32 v => b.num 4 v
  | .ifaceType v => b.num 1 (v % 256 &&& 0x3f)
  | .sourceIface v => b.num 1 (v % 256 &&& 0xf)
  | .destIface v => b.num 1 (v % 256 &&& 0xf)
  | .nodeId v => encNodeId v b
  | .upFeatures bits => b.put bits
  | .cpFeatures bits => b.put bits
  | .fSeid v => encFSeid v b
  | .fTeid v => encFTeid v b
  | .applyAction bits => b.put bits
  | .networkInst s => encName s b
  | .ohc v => encOhc v b
  | .apr s => if s.length ≠ 0 then b.put s else .ok b
  | .ohr v => encOhr v b
  | .ueIp v => encUeIp v b

/-- A table entry for a kind of IE (`.dec_func`, `.enc_func`; gen__pfcp_ies_auto.c).  A struct member
of another type than the table says does not occur in C; it is undefined behaviour here. -/
def ieCoding (tag : Nat) (kind : Kind) (k : IeKind) : Coding IeVal :=
  leafCoding { tag := tag } kind (ieDec k) fun v b => if v.kind = k then ieEnc v b else .ub

/-! ### Other functions on IE values -/

/-- `osmo_pfcp_ie_f_seid_set()` (pfcp_ies_custom.c:92-98); the return code of
`osmo_pfcp_ip_addrs_set()` is ignored. -/
def fSeidSet (seid : Nat) (remote : Sockaddr) : FSeid :=
  match ({} : IpAddrs).set remote with
  | .ok ip => { seid := seid, ip := ip }
  | .err _ ip => { seid := seid, ip := ip }
  | _ => { seid := seid }

/-- The comparison of addresses in `osmo_pfcp_ie_f_seid_cmp()` (pfcp_ies_custom.c:110-116). -/
def fSeidAddrCmp (a b : FSeid) : Int :=
  if a.ip.v4Present ∧ b.ip.v4Present then a.ip.v4.cmp b.ip.v4
  else if a.ip.v6Present ∧ b.ip.v6Present then a.ip.v6.cmp b.ip.v6
  else if a.ip.v4Present then -1 else 1

/-- `osmo_pfcp_ie_f_seid_cmp()` (pfcp_ies_custom.c:100-123): `none` is NULL; `samePtr`: both are
the same pointer. -/
def fSeidCmp (samePtr : Bool) (a b : Option FSeid) : Int :=
  if samePtr then 0
  else
    match a, b with
    | none, none => 0        -- equal pointers
    | none, some _ => -1
    | some _, none => 1
    | some a, some b =>
      if fSeidAddrCmp a b ≠ 0 then fSeidAddrCmp a b
      else if a.seid < b.seid then -1
      else if b.seid < a.seid then 1
      else 0

/-- `osmo_pfcp_ie_node_id_from_osmo_sockaddr()` (pfcp_msg.c:104-118). -/
def nodeIdFromSockaddr (os : Sockaddr) : Res NodeId :=
  match os with
  | .inet _ _ => .ok (.v4 os)
  | .inet6 _ _ => .ok (.v6 os)
  | _ => .err .ENOTSUP

/-- `osmo_pfcp_ie_node_id_to_osmo_sockaddr()` (pfcp_msg.c:120-136); `out` is what the output argument
contains before the call. -/
def nodeIdToSockaddr (n : NodeId) (out : Sockaddr) : Res Sockaddr :=
  match n with
  | .v4 ip => if out.isInet then .ok ip else .err .EINVAL
  | .v6 ip => if out.isInet6 then .ok ip else .err .EINVAL
  | _ => .err .ENOTSUP

end Verif
