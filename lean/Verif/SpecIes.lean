/-
Specification vocabulary for IE values: what octets a value is carried as (3GPP TS 29.244), which
values fit the format, and how many octets an IE announces itself.  Written without reference to the
model's encoders and decoders.
-/
import Verif.Ies
import Verif.SpecTlv

namespace Verif.Spec
open Verif

/-- The number `v` as `k` octets, most significant octet first. -/
def be : Nat → Nat → List UInt8
  | 0, _ => []
  | k + 1, v => be k (v / 256) ++ [octet (v % 256)]

/-- `x` if the part is there. -/
def part (present : Bool) (x : List UInt8) : List UInt8 := if present then x else []

/-- A flag that is bit `i` of an octet. -/
def bit (i : Nat) (b : Bool) : Nat := if b then 2 ^ i else 0

/-- The address octets of an IPv4 or IPv6 address. -/
def addrOctets : Sockaddr → List UInt8
  | .inet a _ => be 4 a
  | .inet6 a _ => be 16 a
  | _ => []

/-! #### Names -/

/-- The labels of a dotted name. -/
def labelsOf : List UInt8 → List (List UInt8)
  | [] => [[]]
  | c :: s =>
    if c = 46 then [] :: labelsOf s
    else
      match labelsOf s with
      | l :: ls => (c :: l) :: ls
      | [] => [[c]]

/-- Labels, each preceded by its length. -/
def labelOctets (ls : List (List UInt8)) : List UInt8 := ls.flatMap fun l => octet l.length :: l

/-- Labels separated by dots. -/
def dotted : List (List UInt8) → List UInt8
  | [] => []
  | [l] => l
  | l :: ls => l ++ 46 :: dotted ls

/-- A name that fits `char[254]`: not longer than 253, no NUL, and no empty label unless the name is
empty as a whole. -/
def GoodName (s : List UInt8) : Prop :=
  s.length ≤ 253 ∧ (0 : UInt8) ∉ s ∧ (s = [] ∨ ∀ l ∈ labelsOf s, l ≠ [])

/-! #### What a value is carried as -/

/-- The octets of an IE value. -/
def wire : IeVal → List UInt8
  | .cause v => be 1 v
  | .offendingIe v => be 2 v
  | .u8 v => be 1 v
  | .u16 v => be 2 v
  | .u32 v => be 4 v
  | .ifaceType v => be 1 v
  | .sourceIface v => be 1 v
  | .destIface v => be 1 v
  | .nodeId (.v4 a) => [0] ++ addrOctets a
  | .nodeId (.v6 a) => [1] ++ addrOctets a
  | .nodeId (.fqdn s) => [2] ++ labelOctets (labelsOf s)
  | .nodeId (.other _) => []
  | .upFeatures bits => bits
  | .cpFeatures bits => bits
  | .fSeid v =>
    [octet (bit 0 v.ip.v6Present + bit 1 v.ip.v4Present)] ++ be 8 v.seid
      ++ part v.ip.v4Present (addrOctets v.ip.v4) ++ part v.ip.v6Present (addrOctets v.ip.v6)
  | .fTeid (.fixed teid ip) =>
    [octet (bit 0 ip.v4Present + bit 1 ip.v6Present)] ++ be 4 teid
      ++ part ip.v4Present (addrOctets ip.v4) ++ part ip.v6Present (addrOctets ip.v6)
  | .fTeid (.choose v4 v6 idPresent id) =>
    [octet (bit 0 v4 + bit 1 v6 + 4 + bit 3 idPresent)] ++ part idPresent (be 1 id)
  | .applyAction bits => bits
  | .networkInst s => labelOctets (labelsOf s)
  | .ohc v =>
    v.desc ++ part v.teidPresent (be 4 v.teid) ++ part v.ip.v4Present (addrOctets v.ip.v4)
      ++ part v.ip.v6Present (addrOctets v.ip.v6) ++ part v.portPresent (be 2 v.port)
      ++ part v.cTagPresent (be 3 v.cTag) ++ part v.sTagPresent (be 3 v.sTag)
  | .apr s => s
  | .ohr v => be 1 v.desc ++ part v.extPresent (be 1 v.ext)
  | .ueIp v =>
    [octet (bit 0 v.ip.v6Present + bit 1 v.ip.v4Present + bit 2 v.isDest + bit 3 v.delegPresent
        + bit 4 v.chv4 + bit 5 v.chv6 + bit 6 v.plenPresent)]
      ++ part v.ip.v4Present (addrOctets v.ip.v4) ++ part v.ip.v6Present (addrOctets v.ip.v6)
      ++ part v.delegPresent (be 1 v.deleg) ++ part v.plenPresent (be 1 v.plen)

/-! #### Values that fit the format -/

/-- An IPv4 address as it is carried in an IE (the port is not). -/
def IsV4 (a : Sockaddr) : Prop := ∃ n, n < 2 ^ 32 ∧ a = .inet n 0
/-- An IPv6 address as it is carried in an IE. -/
def IsV6 (a : Sockaddr) : Prop := ∃ n, n < 2 ^ 128 ∧ a = .inet6 n 0

/-- Addresses match their presence flags; an absent address is blank. -/
def GoodIps (ip : IpAddrs) : Prop :=
  (if ip.v4Present then IsV4 ip.v4 else ip.v4 = .unspec) ∧
  (if ip.v6Present then IsV6 ip.v6 else ip.v6 = .unspec)

/-- A number below `n` if it is present, blank otherwise. -/
def GoodNum (present : Bool) (n v : Nat) : Prop := if present then v < n else v = 0

/-- Bit `i` of a bit field: bit `i % 8` of octet `i / 8`, where bit 0 is the least significant. -/
def bitAt (bits : List UInt8) (i : Nat) : Bool := ((bits[i / 8]?).map UInt8.toNat).any fun n => n.testBit (i % 8)

/-- The parts of an Outer Header Creation IE that its description announces:
bits 0 GTP-U/UDP/IPv4, 1 GTP-U/UDP/IPv6, 2 UDP/IPv4, 3 UDP/IPv6, 4 IPv4, 5 IPv6, 6 C-TAG, 7 S-TAG. -/
def announces (desc : List UInt8) : OhcParts where
  teid := bitAt desc 0 || bitAt desc 1
  v4 := bitAt desc 0 || bitAt desc 2 || bitAt desc 4
  v6 := bitAt desc 1 || bitAt desc 3 || bitAt desc 5
  port := bitAt desc 2 || bitAt desc 3
  cTag := bitAt desc 6
  sTag := bitAt desc 7

/-- The parts of an Outer Header Creation that are there. -/
def present (v : Ohc) : OhcParts where
  teid := v.teidPresent
  v4 := v.ip.v4Present
  v6 := v.ip.v6Present
  port := v.portPresent
  cTag := v.cTagPresent
  sTag := v.sTagPresent

/-- Values that the format can carry, with blank unused parts. -/
def InRange : IeVal → Prop
  | .cause v => v < 256
  | .offendingIe v => v < 65536
  | .u8 v => v < 256
  | .u16 v => v < 65536
  | .u32 v => v < 2 ^ 32
  | .ifaceType v => v < 64
  | .sourceIface v => v < 16
  | .destIface v => v < 16
  | .nodeId (.v4 a) => IsV4 a
  | .nodeId (.v6 a) => IsV6 a
  | .nodeId (.fqdn s) => GoodName s
  | .nodeId (.other _) => False
  | .upFeatures bits => bits.length = 6
  | .cpFeatures bits => bits.length = 1
  | .fSeid v => v.seid < 2 ^ 64 ∧ GoodIps v.ip
  | .fTeid (.fixed teid ip) => teid < 2 ^ 32 ∧ GoodIps ip
  | .fTeid (.choose _ _ idPresent id) => GoodNum idPresent 256 id
  | .applyAction bits => bits.length = 2
  | .networkInst s => GoodName s
  | .ohc v => v.desc.length = 2 ∧ announces v.desc = present v ∧
      GoodNum v.teidPresent (2 ^ 32) v.teid ∧ GoodIps v.ip ∧ GoodNum v.portPresent 65536 v.port ∧
      GoodNum v.cTagPresent (2 ^ 24) v.cTag ∧ GoodNum v.sTagPresent (2 ^ 24) v.sTag
  | .apr s => s.length ≤ 255 ∧ (0 : UInt8) ∉ s
  | .ohr v => v.desc < 256 ∧ GoodNum v.extPresent 256 v.ext
  | .ueIp v => GoodIps v.ip ∧ GoodNum v.delegPresent 256 v.deleg ∧ GoodNum v.plenPresent 256 v.plen

/-- The string valued codecs. -/
def IsString : IeKind → Prop
  | .networkInst => True
  | .apr => True
  | _ => False

/-! #### How long an IE says it is -/

/-- `n` if the bit is set. -/
def ifBit (b : Bool) (n : Nat) : Nat := if b then n else 0

/-- The number of octets that an IE of this kind with these leading octets needs at least. -/
def needs (k : IeKind) (o : List UInt8) : Nat :=
  match k with
  | .cause => 1
  | .offendingIe => 2
  | .u8 => 1
  | .u16 => 2
  | .u32 => 4
  | .ifaceType => 1
  | .sourceIface => 1
  | .destIface => 1
  | .nodeId => 1 + (if o[0]? = some 0 then 4 else if o[0]? = some 1 then 16 else 1)
  | .upFeatures => 0
  | .cpFeatures => 1
  | .fSeid => 9 + ifBit (bitAt o 1) 4 + ifBit (bitAt o 0) 16
  | .fTeid => if bitAt o 2 then 1 + ifBit (bitAt o 3) 1
              else 5 + ifBit (bitAt o 0) 4 + ifBit (bitAt o 1) 16
  | .applyAction => 1
  | .networkInst => 1
  | .ohc => 2 + ifBit (announces o).teid 4 + ifBit (announces o).v4 4 + ifBit (announces o).v6 16
              + ifBit (announces o).port 2 + ifBit (announces o).cTag 3 + ifBit (announces o).sTag 3
  | .apr => 0
  | .ohr => 1
  | .ueIp => 1 + ifBit (bitAt o 1) 4 + ifBit (bitAt o 0) 16 + ifBit (bitAt o 3) 1 + ifBit (bitAt o 6) 1

end Verif.Spec
