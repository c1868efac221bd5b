/-
Specification vocabulary for user defined TL formats (`struct osmo_gtlv_cfg`, gtlv.h:48-103).

A format is described by what the TL of an IE looks like: `tl ti len` are the octets in front of a value of `len` octets
with tag and instance `ti`; `ok ti len` says which tags, instances and lengths the format can express.
-/
import Verif.SpecDecEnc

namespace Verif.Spec
open Verif

/-- The contract of load_tl() (gtlv.h:66-76): a TL is not empty and not shorter than tl_min_size; if `src_data` begins with
the TL of an IE, and `src_data_len` covers at least the IE, then tag, instance, length and the size of the TL are returned. -/
structure Loads (c : Cfg) (tl : TagInst → Nat → List UInt8) (ok : TagInst → Nat → Prop) : Prop where
  size : ∀ ti len, ok ti len → tl ti len ≠ [] ∧ c.tlMin ≤ (tl ti len).length
  load : ∀ ti len rest n, ok ti len → (tl ti len).length + len ≤ n → n ≤ (tl ti len ++ rest).length →
    c.loadTl (tl ti len ++ rest) n = .ok { ti := ti, len := len, hdr := (tl ti len).length }

/-- The contract of store_tl() (gtlv.h:78-96), for formats where the size of the TL does not depend on the length: the TL is
stored if there is room for it; a TL with the length not known yet (0) takes the same room. -/
structure Stores (c : Cfg) (tl : TagInst → Nat → List UInt8) (ok : TagInst → Nat → Prop) : Prop where
  store : ∀ ti len avail, ok ti len → (tl ti len).length ≤ avail → c.storeTl avail ti len = .ok (tl ti len)
  reserve : ∀ ti len avail, ok ti len → (tl ti len).length ≤ avail →
    ∃ o, c.storeTl avail ti 0 = .ok o ∧ o.length = (tl ti len).length

/-- The contract of store_tl() for any format, when the length is known in advance. -/
def StoresKnown (c : Cfg) (tl : TagInst → Nat → List UInt8) (ok : TagInst → Nat → Prop) : Prop :=
  ∀ ti len avail, ok ti len → (tl ti len).length ≤ avail → c.storeTl avail ti len = .ok (tl ti len)

/-- IEs (tag, instance and value) one after the other, in a format. -/
def inFormat (tl : TagInst → Nat → List UInt8) (ies : List (TagInst × List UInt8)) : List UInt8 :=
  ies.flatMap fun x => tl x.1 x.2.length ++ x.2

/-- The format can express these IEs. -/
def Expressible (ok : TagInst → Nat → Prop) (ies : List (TagInst × List UInt8)) : Prop := ∀ x ∈ ies, ok x.1 x.2.length

/-- A load_tl() that returns (0 or an error) and does not read beyond `src_data_len` octets, of which there are tl_min_size at
least. -/
def StaysInside (c : Cfg) : Prop :=
  ∀ p n, c.tlMin ≤ n → 0 < n → n ≤ p.length → (∃ r, c.loadTl p n = .ok r) ∨ ∃ e, c.loadTl p n = .err e

/-- The value that load_tl() points at begins inside (or at the end of) what load_tl() was given, and its length is not larger
than `most`. -/
def PointsInside (c : Cfg) (most : Nat) : Prop :=
  ∀ p n r, c.tlMin ≤ n → 0 < n → c.loadTl p n = .ok r → r.hdr ≤ n ∧ r.len ≤ most

/-- A TL is not empty. -/
def TakesOctets (c : Cfg) : Prop := ∀ p n r, c.loadTl p n = .ok r → 0 < r.hdr

/-- Every value in the struct has a codec, and the format can express its octets as an IE with the tag and instance of the
entry. -/
def AllExpressible {A : Type} (ok : TagInst → Nat → Prop) (table : List (Coding A)) (s : Struct A) : Prop :=
  ∀ (i : Nat) c vs, table[i]? = some c → s[i]? = some vs → ∀ v ∈ vs, ∃ octets, ok c.ti octets.length ∧ Codec c v octets

end Verif.Spec
