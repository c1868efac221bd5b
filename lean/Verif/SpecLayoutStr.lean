/-
Specification: the table that prints, without offsets.
-/
import Verif.LayoutStr
import Verif.SpecLayout

namespace Verif.Spec
open Verif

variable {A : Type}

mutual
/-- How `Strs` has an entry: a member is a slot. -/
def strSlotOf (names : ValueStrs) (p : Place) : PTy A → StrCoding A
  | .leaf _ str =>
    { tag := p.ti.tag, kind := p.kind, how := .func (str.map fun f v => match v with | .leaf a => f a | .node _ => fun _ => .ub) }
  | .nested _ _ _ t =>
    { tag := p.ti.tag, kind := p.kind
      how := .nested fun v => match v with
        | .node ss => gtlvsToStr names ss (some (strSlotsOf names t))
        | .leaf _ => fun _ => .ub }
/-- A table. -/
def strSlotsOf (names : ValueStrs) : PTab A → List (StrCoding A)
  | .nil => []
  | .cons p ty r => strSlotOf names p ty :: strSlotsOf names r
end

mutual
/-- The value that a type has when all its bytes are zero. -/
def zeroVal : MTy A → Val A
  | .leaf l => .leaf l.zero
  | .nested _ _ _ t => .node (zeroStruct t)
/-- ... a struct: no optional members, no elements, mandatory members zero. -/
def zeroStruct : MTab A → Struct A
  | .nil => []
  | .cons p ty r => (if p.kind = .mand then [zeroVal ty] else []) :: zeroStruct r
end

mutual
/-- A value as C has it: mandatory members that were not set are zero. -/
def asInCVal : MTy A → Val A → Val A
  | .nested _ _ _ t, .node ss => .node (asInC t ss)
  | _, v => v
/-- ... the values of a struct. -/
def asInC : MTab A → Struct A → Struct A
  | .cons p ty r, s :: ss => (if p.kind = .mand ∧ s = [] then [zeroVal ty] else s.map (asInCVal ty)) :: asInC r ss
  | _, ss => ss
end

/-- A function that prints returns. -/
def Tidy (f : StrFn) : Prop := ∀ buf, ∃ buf' rc, f buf = .ok (buf', rc) ∧ buf'.isSome = buf.isSome

mutual
/-- The functions that print IEs return, for all values. -/
def _root_.Verif.PTy.Tidies : PTy A → Prop
  | .leaf _ str => ∀ f, str = some f → ∀ a, Tidy (f a)
  | .nested _ _ _ t => t.Tidies
def _root_.Verif.PTab.Tidies : PTab A → Prop
  | .nil => True
  | .cons _ ty r => ty.Tidies ∧ r.Tidies
end

end Verif.Spec
