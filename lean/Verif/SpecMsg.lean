/-
Specification vocabulary for PFCP messages: message layouts, the octets of a message and of a
bundle, and which headers and structs fit the format.  Written without reference to the model's
tables, encoders and decoders; only the data types are shared.
-/
import Verif.Msg
import Verif.SpecIes
import Verif.SpecDecEnc

namespace Verif.Spec
open Verif

/-! #### Information element identifiers (TS 29.244 table 8.1.2-1) -/

namespace Iei
def createPdr := 1
def pdi := 2
def createFar := 3
def forwardingParameters := 4
def createdPdr := 8
def updatePdr := 9
def updateFar := 10
def updateForwardingParameters := 11
def removePdr := 15
def removeFar := 16
def cause := 19
def sourceInterface := 20
def fTeid := 21
def networkInstance := 22
def precedence := 29
def offendingIe := 40
def destinationInterface := 42
def upFunctionFeatures := 43
def applyAction := 44
def pdrId := 56
def fSeid := 57
def nodeId := 60
def outerHeaderCreation := 84
def cpFunctionFeatures := 89
def ueIpAddress := 93
def outerHeaderRemoval := 95
def recoveryTimeStamp := 96
def activatePredefinedRules := 106
def farId := 108
def trafficEndpointId := 131
def interfaceType := 160
def updatedPdr := 256
end Iei

/-! #### Layouts: what a message or grouped IE may contain -/

/-- A layout: identifier, how often, what. -/
def layout : List (Nat × Kind × Ty) → Fields
  | [] => .nil
  | (iei, kind, ty) :: l => .cons iei kind ty (layout l)

/-- Between `lo` and `hi` times. -/
def times (lo hi : Nat) : Kind := .multi hi lo
abbrev once : Kind := .mand
abbrev maybe : Kind := .opt

namespace Group
def pdi : Ty := .group <| layout
  [ (Iei.sourceInterface, once, .ie .sourceIface), (Iei.fTeid, maybe, .ie .fTeid),
    (Iei.networkInstance, maybe, .ie .networkInst), (Iei.ueIpAddress, maybe, .ie .ueIp),
    (Iei.trafficEndpointId, maybe, .ie .u8), (Iei.interfaceType, maybe, .ie .ifaceType) ]
def createPdr : Ty := .group <| layout
  [ (Iei.pdrId, once, .ie .u16), (Iei.precedence, once, .ie .u32), (Iei.pdi, once, pdi),
    (Iei.outerHeaderRemoval, maybe, .ie .ohr), (Iei.farId, maybe, .ie .u32),
    (Iei.activatePredefinedRules, maybe, .ie .apr) ]
def createdPdr : Ty := .group <| layout [ (Iei.pdrId, once, .ie .u16), (Iei.fTeid, maybe, .ie .fTeid) ]
def updatePdr : Ty := .group <| layout
  [ (Iei.pdrId, once, .ie .u16), (Iei.outerHeaderRemoval, maybe, .ie .ohr), (Iei.pdi, maybe, pdi),
    (Iei.farId, maybe, .ie .u32), (Iei.activatePredefinedRules, maybe, .ie .apr) ]
def updatedPdr : Ty := .group <| layout [ (Iei.pdrId, once, .ie .u16), (Iei.fTeid, maybe, .ie .fTeid) ]
def removePdr : Ty := .group <| layout [ (Iei.pdrId, once, .ie .u16) ]
def forwardingParameters : Ty := .group <| layout
  [ (Iei.destinationInterface, once, .ie .destIface), (Iei.networkInstance, maybe, .ie .networkInst),
    (Iei.outerHeaderCreation, maybe, .ie .ohc), (Iei.trafficEndpointId, maybe, .ie .u8),
    (Iei.interfaceType, maybe, .ie .ifaceType) ]
def updateForwardingParameters : Ty := .group <| layout
  [ (Iei.destinationInterface, maybe, .ie .destIface), (Iei.networkInstance, maybe, .ie .networkInst),
    (Iei.outerHeaderCreation, maybe, .ie .ohc), (Iei.trafficEndpointId, maybe, .ie .u8),
    (Iei.interfaceType, maybe, .ie .ifaceType) ]
def createFar : Ty := .group <| layout
  [ (Iei.farId, once, .ie .u32), (Iei.applyAction, once, .ie .applyAction),
    (Iei.forwardingParameters, maybe, forwardingParameters) ]
def updateFar : Ty := .group <| layout
  [ (Iei.farId, once, .ie .u32), (Iei.applyAction, maybe, .ie .applyAction),
    (Iei.updateForwardingParameters, maybe, updateForwardingParameters) ]
def removeFar : Ty := .group <| layout [ (Iei.farId, once, .ie .u32) ]
end Group

/-- The message types that are supported, and their layouts. -/
def message : Nat → Option Fields
  | 1 /- Heartbeat Request -/ => some <| layout [ (Iei.recoveryTimeStamp, once, .ie .u32) ]
  | 2 /- Heartbeat Response -/ => some <| layout [ (Iei.recoveryTimeStamp, once, .ie .u32) ]
  | 5 /- Association Setup Request -/ => some <| layout
    [ (Iei.nodeId, once, .ie .nodeId), (Iei.recoveryTimeStamp, once, .ie .u32),
      (Iei.upFunctionFeatures, maybe, .ie .upFeatures), (Iei.cpFunctionFeatures, maybe, .ie .cpFeatures) ]
  | 6 /- Association Setup Response -/ => some <| layout
    [ (Iei.nodeId, once, .ie .nodeId), (Iei.cause, once, .ie .cause), (Iei.recoveryTimeStamp, once, .ie .u32),
      (Iei.upFunctionFeatures, maybe, .ie .upFeatures), (Iei.cpFunctionFeatures, maybe, .ie .cpFeatures) ]
  | 9 /- Association Release Request -/ => some <| layout [ (Iei.nodeId, once, .ie .nodeId) ]
  | 10 /- Association Release Response -/ => some <| layout
    [ (Iei.nodeId, once, .ie .nodeId), (Iei.cause, once, .ie .cause) ]
  | 50 /- Session Establishment Request -/ => some <| layout
    [ (Iei.nodeId, once, .ie .nodeId), (Iei.fSeid, maybe, .ie .fSeid),
      (Iei.createPdr, times 1 32, Group.createPdr), (Iei.createFar, times 1 32, Group.createFar) ]
  | 51 /- Session Establishment Response -/ => some <| layout
    [ (Iei.nodeId, once, .ie .nodeId), (Iei.cause, once, .ie .cause), (Iei.offendingIe, maybe, .ie .offendingIe),
      (Iei.fSeid, maybe, .ie .fSeid), (Iei.createdPdr, times 0 32, Group.createdPdr) ]
  | 52 /- Session Modification Request -/ => some <| layout
    [ (Iei.fSeid, maybe, .ie .fSeid), (Iei.removePdr, times 0 32, Group.removePdr),
      (Iei.removeFar, times 0 32, Group.removeFar), (Iei.createPdr, times 0 32, Group.createPdr),
      (Iei.createFar, times 0 32, Group.createFar), (Iei.updatePdr, times 0 32, Group.updatePdr),
      (Iei.updateFar, times 0 32, Group.updateFar) ]
  | 53 /- Session Modification Response -/ => some <| layout
    [ (Iei.cause, once, .ie .cause), (Iei.offendingIe, maybe, .ie .offendingIe),
      (Iei.createdPdr, times 0 32, Group.createdPdr), (Iei.updatedPdr, times 0 32, Group.updatedPdr) ]
  | 54 /- Session Deletion Request -/ => some <| layout []
  | 55 /- Session Deletion Response -/ => some <| layout [ (Iei.cause, once, .ie .cause) ]
  | _ => none

/-! #### The octets of a struct -/

mutual
/-- The value octets of an IE. -/
def valueOctets : Ty → Val IeVal → List UInt8
  | .ie _, .leaf v => wire v
  | .group f, .node s => structOctets f s
  | _, _ => []
/-- The IEs of a struct, one after the other, in the order of the layout. -/
def structOctets : Fields → Struct IeVal → List UInt8
  | .cons iei _ ty f, vs :: s => (vs.flatMap fun v => ie16 (iei, valueOctets ty v)) ++ structOctets f s
  | _, _ => []
end

mutual
/-- A value of the right kind, with plain values that satisfy `ok`. -/
def ValOf (ok : IeVal → Prop) : Ty → Val IeVal → Prop
  | .ie k, .leaf v => v.kind = k ∧ ok v
  | .group f, .node s => StructOf ok f s
  | _, _ => False
/-- A struct that has an allowed number of such values for each member. -/
def StructOf (ok : IeVal → Prop) : Fields → Struct IeVal → Prop
  | .nil, [] => True
  | .cons _ kind ty f, vs :: s =>
    (least kind ≤ vs.length ∧ vs.length ≤ most kind) ∧ (∀ v ∈ vs, ValOf ok ty v) ∧ StructOf ok f s
  | _, _ => False
end

/-- A value that the format can carry. -/
abbrev GoodVal := ValOf InRange
/-- A struct that the format can carry. -/
abbrev GoodStruct := StructOf InRange

/-- In range, or a domain name of any form. -/
def Decodable (v : IeVal) : Prop :=
  InRange v ∨ (∃ s, v = .networkInst s) ∨ (∃ s, v = .nodeId (.fqdn s))

mutual
/-- The value contains an Activate Predefined Rules IE (whose decoder looks for a NUL, see C36). -/
def HasRuleName : Ty → Val IeVal → Prop
  | .ie _, .leaf v => v.kind = .apr
  | .group f, .node s => HasRuleNames f s
  | _, _ => False
/-- The struct contains an Activate Predefined Rules IE. -/
def HasRuleNames : Fields → Struct IeVal → Prop
  | .cons _ _ ty f, vs :: s => (∃ v ∈ vs, HasRuleName ty v) ∨ HasRuleNames f s
  | _, _ => False
end

/-! #### The octets of a message -/

/-- Header values that the format can carry: absent parts are 0, and no priority without SEID. -/
structure GoodHdr (h : Hdr) : Prop where
  version : h.version < 8
  type : h.type < 256
  seq : h.seq < 2 ^ 24
  prio : if h.prioPresent then h.prio < 16 else h.prio = 0
  seid : if h.seidPresent then h.seid < 2 ^ 64 else h.seid = 0
  prioNeedsSeid : h.prioPresent = true → h.seidPresent = true

/-- What follows the first four octets of a message. -/
def bodyOctets (h : Hdr) (ies : List UInt8) : List UInt8 :=
  part h.seidPresent (be 8 h.seid) ++ be 3 h.seq ++ [octet h.prio] ++ ies

/-- A message on the wire: flags (version in bits 5-7, Follow On 2, Message Priority 1, SEID 0), type,
number of octets that follow, and these octets. -/
def msgOctets (followOn : Bool) (h : Hdr) (ies : List UInt8) : List UInt8 :=
  [octet (32 * h.version + bit 2 followOn + bit 1 h.prioPresent + bit 0 h.seidPresent), octet h.type]
    ++ be 2 (bodyOctets h ies).length ++ bodyOctets h ies

/-- A bundle: messages one after the other, all but the last one with Follow On. -/
def bundleOctets : List (Hdr × List UInt8) → List UInt8
  | [] => []
  | [(h, ies)] => msgOctets false h ies
  | (h, ies) :: l => msgOctets true h ies ++ bundleOctets l

/-! #### What octets announce -/

/-- The length of the header that the first octet announces. -/
def announcedHeader (o : List UInt8) : Nat := if bitAt o 0 then 16 else 8

/-- The length that octets 2 and 3 announce, with the first four octets. -/
def announcedLength (o : List UInt8) : Nat := loadBE ((o.drop 2).take 2) + 4

/-- Octets that are one message with a proper header: the length field says their length, the header is
complete, and there is no priority without SEID.  (Nothing is said about the IEs.) -/
def Framed (m : List UInt8) : Prop :=
  4 ≤ m.length ∧ announcedHeader m ≤ m.length ∧ announcedLength m = m.length ∧ (bitAt m 1 = true → bitAt m 0 = true)

/-- The response message types of TS 29.244 table 7.3-1. -/
def responseTypes : List Nat := [2, 4, 6, 8, 10, 11, 13, 15, 51, 53, 55, 57]

end Verif.Spec
