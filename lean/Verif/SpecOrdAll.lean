/-
What ordered decoding does with any octets, for any coding table: the outcome, and what is reported.
-/
import Verif.SpecReport

namespace Verif.Spec
open Verif
variable {A : Type}

/-- No IE begins with these octets: there is not even a tag and a length, or there are fewer octets behind than the length
says. -/
def Width.NoIe (w : Width) (junk : List UInt8) : Prop :=
  junk ≠ [] ∧ (junk.length < w.tl ∨ junk.length < w.tl + numAt junk (w.tl / 2) (w.tl / 2))

/-- The tag that such octets begin with, if they have a tag and a length. -/
def Width.half (w : Width) (junk : List UInt8) : Option TagInst :=
  if junk.length < w.tl then none else some { tag := numAt junk 0 (w.tl / 2) }

/-- The value of an IE, and the reports about it. -/
def valueR (c : RCoding A) (x : List UInt8) : Rep (Val A) :=
  match c.c.dec with
  | none => (.err .EIO, [{ ti := c.c.ti, rc := .EIO, text := .noDecoder }])
  | some d =>
    match d x x.length with
    | .err e => (.err e, c.decReports x x.length ++ [{ ti := c.c.ti, rc := e, text := if c.nested then .inside else .value' }])
    | r => (r, c.decReports x x.length)

/-- The values of IEs, until the first that is not decoded. -/
def valuesR (c : RCoding A) : List (List UInt8) → Rep (List (Val A))
  | [] => (.ok [], [])
  | x :: xs => (valueR c x).bind fun v => (valuesR c xs).bind fun vs => (.ok (v :: vs), [])

/-- What an entry takes of the IEs `here`, of which the first has its tag: the first one, and if the entry is for a repeated
IE, all that directly follow with the same tag; but not more than there is `room` for.
If there is no room for all, they go on to the next entry for the tag, if any (`later`).
If they are followed by the beginning of an IE with the same tag (`half`) that is not complete, decoding fails, and nothing
is reported.  `next`: what is done with the values and the remaining IEs; its second argument says whether the first of them
goes to the next entry for its tag (`true`), or the next entry is looked for among them (`false`). -/
def entryR {α : Type} (half : Option TagInst) (c : RCoding A) (later : Bool) (room : Nat) (here : List (TagInst × List UInt8))
    (next : List (Val A) → Bool → List (TagInst × List UInt8) → Rep α) : Rep α :=
  match c.c.kind with
  | .multi max _ =>
    let n := (here.takeWhile fun x => x.1 = c.c.ti).length
    (valuesR c ((here.take (min room n)).map Prod.snd)).bind fun vs =>
      if room < n then
        if later then next vs true (here.drop room)
        else (.err .ENOTSUP, [{ ti := c.c.ti, rc := .ENOTSUP, text := .surplus max }])
      else if n = here.length ∧ half = some c.c.ti then (.err .EBADMSG, [])
      else next vs false (here.drop n)
  | _ => (valuesR c ((here.take 1).map Prod.snd)).bind fun vs => next vs false (here.drop 1)

/-- Entry by entry.  `go`: the first IE goes to the first entry for its tag; the entries before this one get nothing.
Otherwise skip to the next IE with the entry's tag.  If there is none, nothing is skipped; it is an error if the IEs are
followed by octets that are not an IE (`bad`), or if the entry is mandatory.
What is left when the table ends is ignored, whatever it is. -/
def inOrderR (bad : Bool) (half : Option TagInst) : List (RCoding A) → Bool → List (TagInst × List UInt8) → Rep (Struct A)
  | [], _, _ => (.ok [], [])
  | c :: cs, go, ies =>
    match if go then ies else ies.dropWhile fun x => x.1 ≠ c.c.ti with
    | [] =>
      if bad then (.err .EBADMSG, [{ ti := c.c.ti, rc := .EBADMSG, text := .broken' }])
      else if 0 < least c.c.kind then (.err .ENOENT, [{ ti := c.c.ti, rc := .ENOENT, text := .missing }])
      else (inOrderR bad half cs go ies).bind fun s => (.ok ([] :: s), [])
    | x :: rest =>
      if x.1 = c.c.ti then
        entryR half c (decide (c.c.ti ∈ cs.map fun c => c.c.ti)) (most c.c.kind) (x :: rest) fun vs go ies =>
          (inOrderR bad half cs go ies).bind fun s => (.ok (vs :: s), [])
      else (inOrderR bad half cs go ies).bind fun s => (.ok ([] :: s), [])

/-- The decoder and its reports depend on the octets of the IE only. -/
def LooksOnlyAtIeR (c : RCoding A) : Prop :=
  LooksOnlyAtIe c.c ∧ ∀ v rest, c.decReports (v ++ rest) v.length = c.decReports v v.length

end Verif.Spec
