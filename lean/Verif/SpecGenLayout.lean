/-
Specification: what C guarantees about the layout of structs, and when the functions for IEs fit their members.
-/
import Verif.GenLayout
import Verif.SpecGen
import Verif.SpecLayout

namespace Verif.Spec
open Verif

/-- The bytes of a member, of its presence flag, and of its count (4 bytes). -/
def membRanges (abi : Abi) (struct : Text) (m : CMemb) : List Range :=
  (if m.presence then [(abi.ofs struct (m.name ++ lit "_present"), 1)] else []) ++
  if m.multi = 0 then [(abi.ofs struct m.name, abi.size m.type)]
  else [(abi.ofs struct m.name, m.multi * abi.size m.type), (abi.ofs struct (m.name ++ lit "_count"), 4)]

/-- What C guarantees (C11 6.7.2.1, 6.5.3.4): what is declared in a struct is inside of it and does not overlap, members have
at least one byte, and a union is not smaller than its members, the structs of the messages. -/
structure Lawful (c : GCfg) (ms : List GMsg) (structs : List CStruct) (abi : Abi) : Prop where
  apart : ∀ s ∈ structs, (s.members.flatMap (membRanges abi s.type)).Pairwise Apart
  inside : ∀ s ∈ structs, ∀ r ∈ s.members.flatMap (membRanges abi s.type), r.1 + r.2 ≤ abi.size s.type
  bytes : ∀ s ∈ structs, ∀ m ∈ s.members, 0 < abi.size m.type
  union : ∀ m ∈ ms, abi.size (lit "struct " ++ c.protoName ++ lit "_msg_" ++ m.name) ≤ abi.size (lit "union " ++ c.protoName ++ lit "_ies")
  some : 0 < abi.size (lit "union " ++ c.protoName ++ lit "_ies")

/-- The functions for an IE are for the type of its member. -/
def Typed {A : Type} (c : GCfg) (ms : List GMsg) (fn : Text → Option (CFn A)) : Prop :=
  ∀ o i, (o, i) ∈ leaves ms → ∃ f, fn (i.decEnc.getD (nameOf o i)) = some f ∧ f.type = typeOf c o i

/-- Constants have values, and nothing is both optional and an array. -/
def Known (c : GCfg) (ms : List GMsg) (value : Text → Option Nat) : Prop :=
  ∀ o i, (o, i) ∈ occs ms → (∃ t, value (c.tagPrefix ++ capitals (nameOf o i)) = some t) ∧
    (∀ inst, o.inst = some inst → ∃ t, value inst = some t) ∧ (o.optional = true → o.multi = 0)

end Verif.Spec
