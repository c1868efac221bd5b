/-
What encoding does, for any coding table, any struct, and any room: the outcome, the octets, and what is reported.
-/
import Verif.SpecAnyOrd

namespace Verif.Spec
open Verif
variable {A : Type}

/-- What comes of writing: the outcome with what is written by then, and the reports. -/
abbrev Wrote (α : Type) := Out α × List Report

/-- First the one, then the other, if the one succeeds. -/
def Wrote.then {α β : Type} (f : α → Wrote β) (failed : α → β) : Wrote α → Wrote β
  | (.ok a, l) => ((f a).1, l ++ (f a).2)
  | (.err e a, l) => (.err e (failed a), l)
  | (.abort, l) => (.abort, l)
  | (.ub, l) => (.ub, l)
  | (.diverge, l) => (.diverge, l)

/-- The largest tag, and the largest length, for which a TL has room. -/
def Width.largest (w : Width) : Nat := 256 ^ (w.tl / 2) - 1

/-- What has been written of a TLV structure: octets that belong to no IE; then IEs, the newest first, each with its tag, the
number in its length field, and the octets behind. -/
structure Page where
  lead : List UInt8 := []
  ies : List (TagInst × Nat × List UInt8) := []

/-- An IE with the number `n` in its length field. -/
def Width.ieOctets (w : Width) (x : TagInst × Nat × List UInt8) : List UInt8 :=
  be (w.tl / 2) x.1.tag ++ be (w.tl / 2) x.2.1 ++ x.2.2

/-- The octets. -/
def Page.octets (w : Width) (p : Page) : List UInt8 := p.lead ++ p.ies.reverse.flatMap w.ieOctets

/-- Tag and length 0 of a new IE; they are left out if there is no room for them, or if the tag is too large. -/
def Page.begin (w : Width) (room : Nat) (t : TagInst) (p : Page) : Page :=
  if t.tag ≤ w.largest ∧ (p.octets w).length + w.tl ≤ room then { p with ies := (t, 0, []) :: p.ies } else p

/-- Octets become part of the newest IE, if there is any. -/
def Page.append (o : List UInt8) (p : Page) : Page :=
  match p.ies with
  | [] => { p with lead := p.lead ++ o }
  | (t, n, c) :: ies => { p with ies := (t, n, c ++ o) :: ies }

/-- The length of the newest IE is corrected; but not if it is too large. -/
def Page.settle (w : Width) (p : Page) : Page :=
  match p.ies with
  | [] => p
  | (t, n, c) :: ies => { p with ies := (t, if c.length ≤ w.largest then c.length else n, c) :: ies }

/-- What the encoder of an entry does with an empty buffer of this size. -/
def encodedIn (c : RCoding A) (v : Val A) (room : Nat) : Wrote (List UInt8) :=
  match c.c.enc with
  | none => (.ub, [])
  | some e =>
    match e v { cap := room, data := [] } with
    | .ok b => (.ok b.data, c.encReports v { cap := room, data := [] })
    | .err rc b => (.err rc b.data, c.encReports v { cap := room, data := [] } ++
        [{ ti := c.c.ti, rc := rc, text := if c.nested then .inside else .notEncoded }])
    | .abort => (.abort, [])
    | .ub => (.ub, [])
    | .diverge => (.diverge, [])

/-- One value, of which `i` others of the same member are written before. -/
def writeValue (w : Width) (room : Nat) (c : RCoding A) (i : Nat) (v : Val A) (p : Page) : Wrote Page :=
  let p := p.begin w room c.c.ti
  if most c.c.kind ≤ i then (.err .ENOTSUP p, [{ ti := c.c.ti, rc := .ENOTSUP, text := .surplus (most c.c.kind) }])
  else
    (encodedIn c v (room - (p.octets w).length)).then (fun o => (.ok ((p.append o).settle w), [])) fun o => p.append o

/-- The values of a member, from the `i`-th on. -/
def writeValues (w : Width) (room : Nat) (c : RCoding A) : Nat → List (Val A) → Page → Wrote Page
  | _, [], p => (.ok p, [])
  | i, v :: vs, p => (writeValue w room c i v p).then (writeValues w room c (i + 1) vs) id

/-- All members, in the order of the table. -/
def writeStruct (w : Width) (room : Nat) : List (RCoding A) → Struct A → Page → Wrote Page
  | c :: cs, vs :: ss, p => (writeValues w room c 0 vs p).then (writeStruct w room cs ss) id
  | _, _, p => (.ok p, [])

/-- What `r`, written to an empty buffer of the size of the room in `b`, is when it is written to `b`. -/
def behind (b : Msgb) : Out (List UInt8) → Out Msgb
  | .ok o => .ok { b with data := b.data ++ o }
  | .err e o => .err e { b with data := b.data ++ o }
  | .abort => .abort
  | .ub => .ub
  | .diverge => .diverge

/-- The page's octets as the outcome. -/
def Page.out (w : Width) : Out Page → Out (List UInt8)
  | .ok p => .ok (p.octets w)
  | .err e p => .err e (p.octets w)
  | .abort => .abort
  | .ub => .ub
  | .diverge => .diverge

/-- The struct has a value for each mandatory member and at most one for an optional one, as every C struct has.
A repeated member can have more values than its array has room for: the count is what the caller says. -/
def Members (table : List (RCoding A)) (s : Struct A) : Prop :=
  s.length = table.length ∧
  ∀ (i : Nat) c vs, table[i]? = some c → s[i]? = some vs →
    match c.c.kind with
    | .mand => vs.length = 1
    | .opt => vs.length ≤ 1
    | .multi _ _ => True

/-- The octets in a buffer, as the outcome. -/
def content : Out Msgb → Out (List UInt8)
  | .ok b => .ok b.data
  | .err e b => .err e b.data
  | .abort => .abort
  | .ub => .ub
  | .diverge => .diverge

/-- An encoder that appends to the buffer: it looks at the room that is left, not at the octets that are there, leaves these
alone, and does not write more than there is room for. -/
def AddsTo (f : Msgb → Out Msgb) : Prop :=
  ∀ b : Msgb, b.data.length ≤ b.cap →
    f b = behind b (content (f { cap := b.cap - b.data.length, data := [] })) ∧
    ∀ b', f b = .ok b' → b'.data.length ≤ b.cap

/-- Entries whose encoder appends, and reports what it would report with an empty buffer with as much room. -/
def WritesBehind (c : RCoding A) : Prop :=
  ∀ e, c.c.enc = some e → ∀ v, AddsTo (e v) ∧
    ∀ b : Msgb, b.data.length ≤ b.cap → c.encReports v b = c.encReports v { cap := b.cap - b.data.length, data := [] }

end Verif.Spec
