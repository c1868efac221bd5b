/-
Specification vocabulary for the properties of table driven decoding and encoding: TLV structures
of either width, how often a tag occurs, and what a coding table allows.
-/
import Verif.SpecTlv
import Verif.DecEnc
import Verif.BasicLemmas

namespace Verif.Spec
open Verif

/-- The two TLV configurations that the library provides. -/
inductive Width where
  | w8 | w16
  deriving DecidableEq

/-- `osmo_t8l8v_cfg` and `osmo_t16l16v_cfg`. -/
def Width.cfg : Width → Cfg
  | .w8 => t8l8v
  | .w16 => t16l16v

/-- Size of a TL. -/
def Width.tl : Width → Nat
  | .w8 => 2
  | .w16 => 4

/-- Tag and length fit. -/
def Width.Fits : Width → Ie → Prop
  | .w8 => Fits8
  | .w16 => Fits16

/-- A sequence of IEs on the wire. -/
def Width.octets : Width → List Ie → List UInt8
  | .w8 => octets8
  | .w16 => octets16

/-- The tag of an IE in the form the API uses; neither configuration has instance numbers. -/
def tagOf (x : Ie) : TagInst := { tag := x.1 }

/-- The IEs with a given tag, in order of appearance. -/
def withTag (t : TagInst) (ies : List Ie) : List Ie := ies.filter fun x => tagOf x = t

/-- How often a tag occurs. -/
def count (t : TagInst) (ies : List Ie) : Nat := (withTag t ies).length

variable {A : Type}

/-- How often an IE must occur at least. -/
def least : Kind → Nat
  | .mand => 1
  | .opt => 0
  | .multi _ mandatory => mandatory

/-- How often an IE may occur at most. -/
def most : Kind → Nat
  | .mand => 1
  | .opt => 1
  | .multi max _ => max

/-- Number of occurrences that the entries for a tag require, together. -/
def required (t : TagInst) (table : List (Coding A)) : Nat :=
  ((table.filter fun c => c.ti = t).map fun c => least c.kind).sum

/-- Number of occurrences that the entries for a tag have room for, together. -/
def capacity (t : TagInst) (table : List (Coding A)) : Nat :=
  ((table.filter fun c => c.ti = t).map fun c => most c.kind).sum

/-- Number of values that the members for a tag hold, together. -/
def held (t : TagInst) (table : List (Coding A)) (s : Struct A) : Nat :=
  (((table.zip s).filter fun x => x.1.ti = t).map fun x => x.2.length).sum

/-- A struct that obeys its table: one member per entry, holding an allowed number of values. -/
def Obeys (table : List (Coding A)) (s : Struct A) : Prop :=
  s.length = table.length ∧
  ∀ (i : Nat) c vs, table[i]? = some c → s[i]? = some vs → least c.kind ≤ vs.length ∧ vs.length ≤ most c.kind

/-- The entry's decoder turns the value octets into `v`. -/
def Decodes (c : Coding A) (octets : List UInt8) (v : Val A) : Prop :=
  ∃ d, c.dec = some d ∧ d octets octets.length = .ok v

/-- The decoder's outcome depends on the octets of the IE only, not on what follows in memory. -/
def LooksOnlyAtIe (c : Coding A) : Prop :=
  ∀ d, c.dec = some d → ∀ v rest, d (v ++ rest) v.length = d v v.length

/-- No two entries for the same tag. -/
def DistinctTags (table : List (Coding A)) : Prop := (table.map fun c => c.ti).Nodup

/-- The number of entries that unordered decoding supports (gtlv_dec_enc.c:96). -/
def SmallTable (table : List (Coding A)) : Prop := table.length ≤ 4096

/-- The entry's encoder and decoder are inverse to each other on this value: the encoder appends
exactly `octets` to any msgb with enough room, the decoder makes `v` of them, whatever follows. -/
def Codec (c : Coding A) (v : Val A) (octets : List UInt8) : Prop :=
  (∃ enc, c.enc = some enc ∧ ∀ b : Msgb, b.data.length + octets.length ≤ b.cap →
    enc v b = .ok { b with data := b.data ++ octets }) ∧
  (∃ d, c.dec = some d ∧ ∀ rest, d (octets ++ rest) octets.length = .ok v)

/-- Every value in the struct has a codec, and its octets fit in an IE. -/
def AllCodec (w : Width) (table : List (Coding A)) (s : Struct A) : Prop :=
  ∀ (i : Nat) c vs, table[i]? = some c → s[i]? = some vs → ∀ v ∈ vs,
    ∃ tag octets, c.ti = tagOf (tag, octets) ∧ w.Fits (tag, octets) ∧ Codec c v octets

/-- The encoder of the entry, when there is room, appends exactly `octets`; when there is not, it
does not report success. -/
def EncodesExactly (c : Coding A) (v : Val A) (octets : List UInt8) : Prop :=
  ∃ enc, c.enc = some enc ∧ ∀ b : Msgb,
    (b.data.length + octets.length ≤ b.cap → enc v b = .ok { b with data := b.data ++ octets }) ∧
    (b.cap < b.data.length + octets.length → ∀ b', enc v b ≠ .ok b')

/-- `ies` are the IEs of the struct: in table order, for each entry one IE per value of its member,
with the entry's tag and octets that `R` relates to the value. -/
inductive IesOf (R : Coding A → Val A → List UInt8 → Prop) :
    List (Coding A) → Struct A → List Ie → Prop where
  | nil : IesOf R [] [] []
  | cons {c cs vs ss l l'} :
      All2 (fun v x => c.ti = tagOf x ∧ R c v x.2) vs l →
      IesOf R cs ss l' →
      IesOf R (c :: cs) (vs :: ss) (l ++ l')

end Verif.Spec
