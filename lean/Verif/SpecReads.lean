/-
Specification of what the octets of an IE mean (3GPP TS 29.244, section 8.2): by positions, without reference to
the model's decoders.
-/
import Verif.SpecIes

namespace Verif.Spec
open Verif

/-- The number in `k` octets from octet `i` on, most significant octet first. -/
def numAt (o : List UInt8) (i k : Nat) : Nat := loadBE ((o.drop i).take k)

/-- The same, if it is there; 0 otherwise. -/
def optAt (there : Bool) (o : List UInt8) (i k : Nat) : Nat := if there then numAt o i k else 0

/-- From octet `i` on, an IPv4 address if `v4`, then an IPv6 address if `v6`. -/
def ipsAt (v4 v6 : Bool) (o : List UInt8) (i : Nat) : IpAddrs where
  v4Present := v4
  v4 := if v4 then .inet (numAt o i 4) 0 else .unspec
  v6Present := v6
  v6 := if v6 then .inet6 (numAt o (i + ifBit v4 4) 16) 0 else .unspec

/-- The first `k` octets, zeros for those that are missing. -/
def padded (k : Nat) (o : List UInt8) : List UInt8 := o.take k ++ List.replicate (k - o.length) 0

/-- The Outer Header Creation. -/
def ohcAt (o : List UInt8) : Ohc :=
  let a := announces o
  let i1 := 2 + ifBit a.teid 4
  let i2 := i1 + (ifBit a.v4 4 + ifBit a.v6 16)
  let i3 := i2 + ifBit a.port 2
  let i4 := i3 + ifBit a.cTag 3
  { desc := o.take 2, teidPresent := a.teid, teid := optAt a.teid o 2 4
    ip := ipsAt a.v4 a.v6 o i1
    portPresent := a.port, port := optAt a.port o i2 2
    cTagPresent := a.cTag, cTag := optAt a.cTag o i3 3
    sTagPresent := a.sTag, sTag := optAt a.sTag o i4 3 }

/-- The UE IP Address. -/
def ueIpAt (o : List UInt8) : UeIp :=
  let i1 := 1 + (ifBit (bitAt o 1) 4 + ifBit (bitAt o 0) 16)
  let i2 := i1 + ifBit (bitAt o 3) 1
  { chv6 := bitAt o 5, chv4 := bitAt o 4, isDest := bitAt o 2
    ip := ipsAt (bitAt o 1) (bitAt o 0) o 1
    delegPresent := bitAt o 3, deleg := optAt (bitAt o 3) o i1 1
    plenPresent := bitAt o 6, plen := optAt (bitAt o 6) o i2 1 }

/-- What the octets of an IE mean; `none` if they are not an IE of this kind: there are less octets than the IE needs,
or more than an IE of a fixed length has, or the type of a Node ID is unknown. Names are specified by C41. -/
def readIe (k : IeKind) (o : List UInt8) : Option IeVal :=
  if o.length < needs k o then none
  else
    match k with
    | .cause => if o.length = 1 then some (.cause (numAt o 0 1)) else none
    | .offendingIe => if o.length = 2 then some (.offendingIe (numAt o 0 2)) else none
    | .u8 => some (.u8 (numAt o 0 1))
    | .u16 => some (.u16 (numAt o 0 2))
    | .u32 => some (.u32 (numAt o 0 4))
    | .ifaceType => some (.ifaceType (numAt o 0 1 % 64))
    | .sourceIface => some (.sourceIface (numAt o 0 1 % 16))
    | .destIface => some (.destIface (numAt o 0 1 % 16))
    | .nodeId =>
      if o[0]? = some 0 then if o.length = 5 then some (.nodeId (.v4 (.inet (numAt o 1 4) 0))) else none
      else if o[0]? = some 1 then if o.length = 17 then some (.nodeId (.v6 (.inet6 (numAt o 1 16) 0))) else none
      else none
    | .upFeatures => some (.upFeatures (padded 6 o))
    | .cpFeatures => some (.cpFeatures (padded 1 o))
    | .fSeid => some (.fSeid { seid := numAt o 1 8, ip := ipsAt (bitAt o 1) (bitAt o 0) o 9 })
    | .fTeid =>
      if bitAt o 2 then some (.fTeid (.choose (bitAt o 0) (bitAt o 1) (bitAt o 3) (optAt (bitAt o 3) o 1 1)))
      else some (.fTeid (.fixed (numAt o 1 4) (ipsAt (bitAt o 0) (bitAt o 1) o 5)))
    | .applyAction => some (.applyAction (padded 2 o))
    | .networkInst => none
    | .ohc => some (.ohc (ohcAt o))
    | .apr => some (.apr ((o.takeWhile (· ≠ 0)).take 255))
    | .ohr => some (.ohr { desc := numAt o 0 1, extPresent := decide (1 < o.length), ext := optAt (decide (1 < o.length)) o 1 1 })
    | .ueIp => some (.ueIp (ueIpAt o))

end Verif.Spec
