/-
Specification: what the octets of a PFCP message mean (3GPP TS 29.244, sections 7.2 and 8.1), without reference to the
decoders of the model.
-/
import Verif.SpecReads
import Verif.SpecMsg

namespace Verif.Spec
open Verif

/-- The text before the first NUL: what a C string holds. -/
def cText (s : List UInt8) : List UInt8 := s.takeWhile (· ≠ 0)

/-- What a name means (TS 29.244 8.2.4, 8.2.38; RFC 1035): labels up to the end, written with dots between them; or labels
up to a zero octet, which leaves a dot behind the last label. -/
def NameMeans (o s : List UInt8) : Prop :=
  (1 ≤ o.length ∧ o.length ≤ 254) ∧
  ∃ ls : List (List UInt8), (∀ l ∈ ls, l ≠ [] ∧ l.length ≤ 255) ∧
    ((o = labelOctets ls ∧ s = cText (dotted ls)) ∨
     (∃ x, o = labelOctets ls ++ 0 :: x) ∧ s = cText (ls.flatMap fun l => l ++ [46]))

/-- What the octets of an IE without nested IEs mean. -/
def IeMeans (k : IeKind) (o : List UInt8) (v : IeVal) : Prop :=
  (k = .networkInst ∧ ∃ s, NameMeans o s ∧ v = .networkInst s) ∨
  (k = .nodeId ∧ o[0]? = some 2 ∧ ∃ s, NameMeans (o.drop 1) s ∧ v = .nodeId (.fqdn s)) ∨
  (k ≠ .networkInst ∧ (k = .nodeId → o[0]? ≠ some 2) ∧ readIe k o = some v)

mutual
/-- What the octets of an IE mean: those of a grouped IE are IEs one after the other. -/
def ValueMeans : Ty → List UInt8 → Val IeVal → Prop
  | .ie k, o, .leaf v => IeMeans k o v
  | .group f, o, .node s => ∃ ies : List Ie, (∀ x ∈ ies, Fits16 x) ∧ o = octets16 ies ∧ IesMean f ies s
  | _, _, _ => False
/-- What a sequence of IEs means, given a layout: each member has the values of the IEs with its tag, in order of
appearance, and their number is allowed. Other IEs mean nothing. -/
def IesMean : Fields → List Ie → Struct IeVal → Prop
  | .nil, _, [] => True
  | .cons iei kind ty f, ies, vs :: s =>
    (least kind ≤ vs.length ∧ vs.length ≤ most kind) ∧
    All2 (ValueMeans ty) ((ies.filter fun x => x.1 = iei).map fun x => x.2) vs ∧ IesMean f ies s
  | _, _, _ => False
end

/-- What the header of a message means, by positions: version, S and MP flags in octet 0, type in octet 1; if S, the
SEID is in octets 4 to 11, else there is none; then follow the sequence number and the priority. -/
def headerAt (m : List UInt8) : Hdr where
  version := numAt m 0 1 / 32
  type := numAt m 1 1
  seidPresent := bitAt m 0
  seid := optAt (bitAt m 0) m 4 8
  seq := numAt m (if bitAt m 0 then 12 else 4) 3
  prioPresent := bitAt m 1
  prio := optAt (bitAt m 1) m 15 1 % 16

/-- What the IEs of a message mean. -/
def BodyMeans (m : List UInt8) (s : Struct IeVal) : Prop :=
  ∃ f ies, message (numAt m 1 1) = some f ∧ (∀ x ∈ ies, Fits16 x) ∧ m.drop (announcedHeader m) = octets16 ies ∧ IesMean f ies s

/-- No message begins here: there is nothing, the header or the message is not complete, or there is a priority
without SEID. -/
def NoMessage (o : List UInt8) : Prop :=
  o.length < 4 ∨ o.length < announcedHeader o ∨ o.length < announcedLength o ∨ (bitAt o 1 = true ∧ bitAt o 0 = false)

/-- A received message that has the meaning of `m`. -/
structure IsReadAs (remote : Sockaddr) (m : List UInt8) (x : PMsg) : Prop where
  framed : Framed m
  remote : x.remote = remote
  rx : x.rx = true
  header : x.h = headerAt m
  kind : x.isResponse = true ↔ x.h.type ∈ responseTypes
  ies : BodyMeans m x.ies

/-- The messages that a datagram means: one after the other, without those whose IEs mean nothing, up to where no
message begins. -/
inductive DatagramMeans (remote : Sockaddr) : List UInt8 → List PMsg → Prop
  | stop {o} : NoMessage o → DatagramMeans remote o []
  | good {m o x xs} : IsReadAs remote m x → DatagramMeans remote o xs → DatagramMeans remote (m ++ o) (x :: xs)
  | bad {m o xs} : Framed m → (¬ ∃ s, BodyMeans m s) → DatagramMeans remote o xs → DatagramMeans remote (m ++ o) xs

end Verif.Spec
