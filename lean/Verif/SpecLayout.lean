/-
Specification: what it means that a coding table fits its struct, and what a struct in memory contains.
-/
import Verif.Layout

namespace Verif.Spec
open Verif

variable {A : Type}

/-! ### Layout -/

/-- The entries of a table. -/
def _root_.Verif.MTab.list : MTab A → List (Place × MTy A)
  | .nil => []
  | .cons p ty r => (p, ty) :: r.list

/-- Ranges of bytes: first, and how many. -/
abbrev Range := Nat × Nat

/-- They have no byte in common. -/
def Apart (x y : Range) : Prop := x.1 + x.2 ≤ y.1 ∨ y.1 + y.2 ≤ x.1

/-- sizeof() the type of a member, or of an element of it. -/
def byteSize : MTy A → Nat
  | .leaf l => l.size
  | .nested size _ _ _ => size

/-- The bytes that belong to an entry: the member, or `count_max` elements, each `pitch` after the one before; the flag;
the count. -/
def ranges (p : Place) (size : Nat) : List Range :=
  match p.kind with
  | .mand => [(p.ofs, size)]
  | .opt => [(p.flagOfs, 1), (p.ofs, size)]
  | .multi max _ => [(p.ofs, max * p.pitch), (p.countOfs, 4)]

/-- ... to all entries of a table. -/
def tableRanges : MTab A → List Range
  | .nil => []
  | .cons p ty r => ranges p (byteSize ty) ++ tableRanges r

mutual
/-- A type is laid out as in C: it has at least one byte, and a struct is as its table says. -/
def TyFits : MTy A → Prop
  | .leaf l => 0 < l.size
  | .nested size _ _ t =>
    0 < size ∧ (tableRanges t).Pairwise Apart ∧ (∀ r ∈ tableRanges t, r.1 + r.2 ≤ size) ∧ TabFits t
/-- ... for the types of all members; arrays have at least one element, and elements are not larger than the distance between
them. -/
def TabFits : MTab A → Prop
  | .nil => True
  | .cons p ty r =>
    (∀ max mand, p.kind = .multi max mand → 0 < max ∧ byteSize ty ≤ p.pitch) ∧ TyFits ty ∧ TabFits r
end

/-- The table fits a struct of this size: all members are inside of it, and no two of them overlap. -/
structure Fits (t : MTab A) (size : Nat) : Prop where
  nonempty : 0 < size
  apart : (tableRanges t).Pairwise Apart
  inside : ∀ r ∈ tableRanges t, r.1 + r.2 ≤ size
  members : TabFits t

/-! ### Contents -/

/-- What a piece of memory contains, by offsets from its start. -/
abbrev Bytes (A : Type) := Nat → Cell A

/-- The bytes from an offset on. -/
def from_ (f : Bytes A) (ofs : Nat) : Bytes A := fun i => f (ofs + i)

/-- The first bytes are zero. -/
def AllZero (f : Bytes A) (size : Nat) : Prop := ∀ i, i < size → f i = .raw 0

/-- A bool -/
def IsFlag (f : Bytes A) (b : Bool) : Prop := ∃ x, f 0 = .raw x ∧ (x ≠ 0 ↔ b = true)

/-- An unsigned int -/
def IsCount (f : Bytes A) (n : Nat) : Prop :=
  ∃ b0 b1 b2 b3, f 0 = .raw b0 ∧ f 1 = .raw b1 ∧ f 2 = .raw b2 ∧ f 3 = .raw b3 ∧ loadBE [b0, b1, b2, b3] = n

mutual
/-- The memory contains this value of a type. -/
def IsVal : MTy A → Bytes A → Val A → Prop
  | .leaf l, f, .leaf a => (∀ i, i < l.size → f i = .part a i) ∨ (a = l.zero ∧ AllZero f l.size)
  | .leaf _, _, .node _ => False
  | .nested _ _ _ t, f, .node slots => IsStruct t f slots
  | .nested _ _ _ _, _, .leaf _ => False
/-- The memory contains a struct with these values: the flag or count of each entry says how many there are, and the first
ones (as many as fit) are where the offsets say.  A mandatory member without a value is zero. -/
def IsStruct : MTab A → Bytes A → Struct A → Prop
  | .nil, _, [] => True
  | .nil, _, _ :: _ => False
  | .cons _ _ _, _, [] => False
  | .cons p ty r, f, s :: ss =>
    (p.kind = .opt → IsFlag (from_ f p.flagOfs) (s ≠ []) ∧ s.length ≤ 1) ∧
    (p.kind = .mand → s.length ≤ 1 ∧ (s = [] → AllZero (from_ f p.ofs) (byteSize ty))) ∧
    (∀ max mand, p.kind = .multi max mand → IsCount (from_ f p.countOfs) s.length) ∧
    (∀ i v, s[i]? = some v → i < p.kind.cap → IsVal ty (from_ f (p.ofs + i * p.pitch)) v) ∧
    IsStruct r f ss
end

/-- The bytes of a struct. -/
def bytes (m : Mem A) (obj : Nat) : Bytes A := fun i => m.at_ (obj + i)

/-- No byte has changed, except in a range. -/
def OnlyIn (r : Range) (m m' : Mem A) : Prop :=
  m'.size = m.size ∧ ∀ i, (i < r.1 ∨ r.1 + r.2 ≤ i) → m'.at_ i = m.at_ i

/-- The outcome of a function that works on memory, and what it should compute: it returns the same, only writes to a range,
and what it leaves in memory is as `Post` says. -/
def Agrees {β : Type} (r : Range) (m : Mem A) (Post : Mem A → β → Prop) (o : Out (Mem A)) : Res β → Prop
  | .ok v => ∃ m', o = .ok m' ∧ OnlyIn r m m' ∧ Post m' v
  | .err e => ∃ m', o = .err e m' ∧ OnlyIn r m m'
  | .abort => o = .abort
  | .ub => o = .ub
  | .diverge => o = .diverge

/-! ### The table without offsets -/

mutual
/-- An entry as `DecEnc` has it: a member is a slot. -/
def slotOf (p : Place) : MTy A → Coding A
  | .leaf l => leafCoding p.ti p.kind l.dec l.enc
  | .nested _ cfg ordered t => nestedCoding p.ti p.kind cfg ordered (slotsOf t)
/-- A table. -/
def slotsOf : MTab A → List (Coding A)
  | .nil => []
  | .cons p ty r => slotOf p ty :: slotsOf r
end

end Verif.Spec
