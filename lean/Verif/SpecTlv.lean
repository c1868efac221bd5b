/-
Specification vocabulary for the TLV properties.  Independent of the model of the code: an IE is
a pair of tag number and value octets, a TLV structure is a list of IEs.
-/
namespace Verif.Spec

/-- An information element: tag number and value octets. -/
abbrev Ie := Nat × List UInt8

/-- One octet with the value `n` (for `n < 256`). -/
def octet (n : Nat) : UInt8 := UInt8.ofNat n

/-- An IE with one octet tag and one octet length. -/
def ie8 (x : Ie) : List UInt8 := [octet x.1, octet x.2.length] ++ x.2

/-- An IE with two octets tag and two octets length, most significant octet first. -/
def ie16 (x : Ie) : List UInt8 :=
  [octet (x.1 / 256), octet (x.1 % 256), octet (x.2.length / 256), octet (x.2.length % 256)] ++ x.2

/-- Tag and length fit in one octet each. -/
def Fits8 (x : Ie) : Prop := x.1 ≤ 255 ∧ x.2.length ≤ 255

/-- Tag and length fit in two octets each. -/
def Fits16 (x : Ie) : Prop := x.1 ≤ 65535 ∧ x.2.length ≤ 65535

/-- A TLV structure: IEs one after the other. -/
def octets8 (l : List Ie) : List UInt8 := l.flatMap ie8
def octets16 (l : List Ie) : List UInt8 := l.flatMap ie16

end Verif.Spec
