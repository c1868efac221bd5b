/-
What unordered decoding does with any octets, for any coding table: the outcome, and what is reported.
-/
import Verif.SpecOrdAll

namespace Verif.Spec
open Verif
variable {A : Type}

/-- The value of an IE, and the reports about it. -/
def anyValueR (c : RCoding A) (x : List UInt8) : Rep (Val A) :=
  match c.c.dec with
  | none => (.err .EIO, [{ ti := c.c.ti, rc := .EIO, text := .noDecoder }])
  | some d =>
    match d x x.length with
    | .err e => (.err e, c.decReports x x.length ++
        [{ ti := c.c.ti, rc := e, text := if c.nested then .inside else .value x.length (x.take 16) (decide (16 < x.length)) }])
    | r => (r, c.decReports x x.length)

/-- Where an IE goes that is preceded by `n` IEs with the same tag: the first entry for the tag takes as many as it has room
for, then the next one, and so on. -/
def home (t : TagInst) : List (RCoding A) → Nat → Option (Nat × RCoding A)
  | [], _ => none
  | c :: cs, n =>
    if c.c.ti = t then
      if n < most c.c.kind then some (0, c) else (home t cs (n - most c.c.kind)).map fun (i, c) => (i + 1, c)
    else (home t cs n).map fun (i, c) => (i + 1, c)

/-- The values of the IEs, each with the number of the member it goes to; until the first IE there is no room for, or that
is not decoded.  IEs without an entry in the table are ignored. -/
def readIes (table : List (RCoding A)) : (before ies : List (TagInst × List UInt8)) → Rep (List (Nat × Val A))
  | _, [] => (.ok [], [])
  | before, x :: ies =>
    match home x.1 table (before.filter fun y => y.1 = x.1).length with
    | some (i, c) =>
      (anyValueR c x.2).bind fun v => (readIes table (before ++ [x]) ies).bind fun l => (.ok ((i, v) :: l), [])
    | none =>
      if capacity x.1 (unreported table) = 0 then readIes table (before ++ [x]) ies
      else (.err .ENOTSUP, [{ ti := x.1, rc := .ENOTSUP, text := .surplus (capacity x.1 (unreported table)) }])

/-- The struct of which these are the values. -/
def assemble (n : Nat) (l : List (Nat × Val A)) : Struct A :=
  (List.range n).map fun i => (l.filter fun x => x.1 = i).map Prod.snd

/-- The report about the first member that has not as many values as it must have. -/
def firstLack : List (RCoding A) → Struct A → Option Report
  | c :: cs, s :: ss =>
    if s.length < least c.c.kind then
      some { ti := c.c.ti, rc := .EINVAL,
             text := match c.c.kind with
               | .multi _ m => .tooFew m s.length
               | _ => .missing }
    else firstLack cs ss
  | _, _ => none

/-- The tag by which the place of octets that are no IE is told: their own; if they are too few for one, that of the last IE,
and 0 if there is none. -/
def brokenAt (half : Option TagInst) (ies : List (TagInst × List UInt8)) : TagInst :=
  match half, ies.getLast? with
  | some t, _ => t
  | none, some x => x.1
  | none, none => { tag := 0 }

/-- All IEs in turn; then the octets that follow, if any, are an error; then there must be no member that lacks values. -/
def inAnyOrderR (bad : Bool) (half : Option TagInst) (table : List (RCoding A)) (ies : List (TagInst × List UInt8)) :
    Rep (Struct A) :=
  (readIes table [] ies).bind fun l =>
    if bad then (.err .EBADMSG, [{ ti := brokenAt half ies, rc := .EBADMSG, text := .broken }])
    else
      match firstLack table (assemble table.length l) with
      | some r => (.err .EINVAL, [r])
      | none => (.ok (assemble table.length l), [])

/-- Tables that are made of decoders that look at their IE only, and, to any depth, of such tables. -/
inductive Sound : RCoding A → Prop
  | leaf (c : Coding A) : LooksOnlyAtIe c → Sound (leafRCoding c)
  | nested (ti : TagInst) (kind : Kind) (w : Width) (ordered : Bool) (inner : List (RCoding A)) :
      (∀ c ∈ inner, Sound c) → (∀ c ∈ inner, most c.c.kind ≠ 0) → inner.length ≤ 4096 →
      Sound (nestedRCoding ti kind w.cfg ordered inner)

end Verif.Spec
