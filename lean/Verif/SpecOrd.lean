/-
What ordered decoding does with a TLV structure, for a coding table without repeated tags.
-/
import Verif.SpecDecEnc

namespace Verif.Spec
open Verif
variable {A : Type}

/-- The values of a member, from the octets of its IEs; `n`: the number of values it already holds.
The first IE that does not fit, or is not decoded, decides. -/
def memberValues (c : Coding A) : Nat → List (List UInt8) → Res (List (Val A))
  | _, [] => .ok []
  | n, x :: xs =>
    if most c.kind ≤ n then .err .ENOTSUP
    else
      match c.dec with
      | none => .err .EIO
      | some d => (d x x.length).bind fun v => (memberValues c (n + 1) xs).bind fun vs => .ok (v :: vs)

/-- How many of the following IEs a member takes: all that directly follow with the same tag, if it is a
repeated IE. -/
def runLength (c : Coding A) (l : List (TagInst × List UInt8)) : Nat :=
  match c.kind with
  | .multi _ _ => (l.takeWhile fun x => x.1 = c.ti).length
  | _ => 0

/-- Entry by entry: skip to the next IE with the entry's tag. If there is none, nothing is skipped, and it is an error if
the entry is mandatory. Otherwise the member takes this IE and, if repeated, those that directly follow. What is left
at the end is ignored. -/
def inOrder : List (Coding A) → List (TagInst × List UInt8) → Res (Struct A)
  | [], _ => .ok []
  | c :: cs, ies =>
    match ies.dropWhile fun x => x.1 ≠ c.ti with
    | [] => if 0 < least c.kind then .err .ENOENT else (inOrder cs ies).bind fun s => .ok ([] :: s)
    | x :: rest =>
      (memberValues c 0 (x.2 :: (rest.take (runLength c rest)).map Prod.snd)).bind fun vs =>
      (inOrder cs (rest.drop (runLength c rest))).bind fun s => .ok (vs :: s)

end Verif.Spec
