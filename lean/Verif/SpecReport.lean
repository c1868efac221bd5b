/-
Specification: what is wrong with the IEs of a message, as a report of it is to say: the first fault, counted from the
beginning of the octets, the tag where it is, and the error code.  `Report` and `Complaint` (Report.lean) are the vocabulary
of the error messages.
-/
import Verif.SpecMeaning
import Verif.Report

namespace Verif.Spec
open Verif

/-- The members of a layout: tag, how often, and what the value is. -/
def entries : Fields → List (Nat × Kind × Ty)
  | .nil => []
  | .cons iei kind ty f => (iei, kind, ty) :: entries f

/-- How many of these IEs have this tag. -/
def timesOf (iei : Nat) (ies : List Ie) : Nat := (ies.filter fun x => x.1 = iei).length

/-- No IE begins with these octets: there is not even a tag and a length, or there are fewer octets behind than the length
says. -/
def NoIe (junk : List UInt8) : Prop := junk ≠ [] ∧ (junk.length < 4 ∨ junk.length < 4 + numAt junk 2 2)

/-- The tag by which the place of such octets is told: their own; if they are too few for one, that of the last IE. -/
def brokenTag (ies : List Ie) (junk : List UInt8) : Nat :=
  if junk.length < 4 then (match ies.getLast? with | some x => x.1 | none => 0) else numAt junk 0 2

/-- Up to here there is no fault: no member has more IEs than allowed, and each of their values has a meaning. -/
def Legible (f : Fields) (ies : List Ie) : Prop :=
  (∀ x ∈ ies, Fits16 x) ∧
  ∀ iei kind ty, (iei, kind, ty) ∈ entries f →
    timesOf iei ies ≤ most kind ∧ ∀ v, (iei, v) ∈ ies → ∃ x, ValueMeans ty v x

/-- The error code for a value without meaning: ERANGE for a name that is empty or longer than 254 octets, else EINVAL. -/
def valueError (k : IeKind) (v : List UInt8) : Errno :=
  if k = .networkInst ∧ (v.length < 1 ∨ 254 < v.length) then .ERANGE
  else if k = .nodeId ∧ v[0]? = some 2 ∧ (v.length < 2 ∨ 255 < v.length) then .ERANGE
  else .EINVAL

/-- What the error code and the reports are for IEs that mean nothing, given a layout. -/
inductive Blames : Fields → List UInt8 → Errno → List Report → Prop
  /-- Behind proper IEs are octets that are not an IE. -/
  | broken {f ies junk} : Legible f ies → NoIe junk →
      Blames f (octets16 ies ++ junk) .EBADMSG [{ ti := { tag := brokenTag ies junk }, rc := .EBADMSG, text := .broken }]
  /-- An IE comes once more than allowed. -/
  | surplus {f ies iei kind ty v o} : Legible f ies → Fits16 (iei, v) → (iei, kind, ty) ∈ entries f →
      timesOf iei ies = most kind →
      Blames f (octets16 (ies ++ [(iei, v)]) ++ o) .ENOTSUP
        [{ ti := { tag := iei }, rc := .ENOTSUP, text := .surplus (most kind) }]
  /-- The value of an IE has no meaning: the report has its length and its first octets. -/
  | value {f ies iei kind k v o} : Legible f ies → Fits16 (iei, v) → (iei, kind, .ie k) ∈ entries f →
      timesOf iei ies < most kind → (¬ ∃ x, IeMeans k v x) →
      Blames f (octets16 (ies ++ [(iei, v)]) ++ o) (valueError k v)
        [{ ti := { tag := iei }, rc := valueError k v, text := .value v.length (v.take 16) (16 < v.length) }]
  /-- Something is wrong within a grouped IE: first this is reported, then in which IE it is. -/
  | inside {f ies iei kind g v o rc l} : Legible f ies → Fits16 (iei, v) → (iei, kind, .group g) ∈ entries f →
      timesOf iei ies < most kind → Blames g v rc l →
      Blames f (octets16 (ies ++ [(iei, v)]) ++ o) rc (l ++ [{ ti := { tag := iei }, rc := rc, text := .inside }])
  /-- In the end, there are fewer of an IE than there must be; this is the first such member of the layout. -/
  | tooFew {f ies pre iei max m ty post} : Legible f ies → entries f = pre ++ (iei, .multi max m, ty) :: post →
      (∀ x ∈ pre, least x.2.1 ≤ timesOf x.1 ies) → timesOf iei ies < m →
      Blames f (octets16 ies) .EINVAL [{ ti := { tag := iei }, rc := .EINVAL, text := .tooFew m (timesOf iei ies) }]
  /-- In the end, there is none of an IE that must be there; this is the first such member of the layout. -/
  | missing {f ies pre iei ty post} : Legible f ies → entries f = pre ++ (iei, .mand, ty) :: post →
      (∀ x ∈ pre, least x.2.1 ≤ timesOf x.1 ies) → timesOf iei ies = 0 →
      Blames f (octets16 ies) .EINVAL [{ ti := { tag := iei }, rc := .EINVAL, text := .missing }]

variable {A : Type}

/-- An entry of a table: with a dec_func and an enc_func, or with a table for the IEs nested in its value. -/
inductive Built : RCoding A → Prop
  | leaf (c : Coding A) : Built (leafRCoding c)
  | nested (ti : TagInst) (kind : Kind) (cfg : Cfg) (ordered : Bool) (inner : List (RCoding A)) :
      (∀ c ∈ inner, Built c) → Built (nestedRCoding ti kind cfg ordered inner)

/-- In these octets, an IE with tag `t` is directly followed by one with the same tag that is not complete. -/
def HalfRepeated (w : Width) (t : TagInst) (o : List UInt8) : Prop :=
  ∃ pre v half, o = pre ++ w.octets [(t.tag, v)] ++ half ∧ w.tl ≤ half.length ∧
    numAt half 0 (w.tl / 2) = t.tag ∧ half.length < w.tl + numAt half (w.tl / 2) (w.tl / 2)

/-- An address is announced that is not of this family. -/
def WrongFamily (ip : IpAddrs) : Prop := (ip.v4Present = true ∧ ip.v4.isInet = false) ∨ (ip.v6Present = true ∧ ip.v6.isInet6 = false)

/-- The values that an encoder may refuse: names, a Node ID of unknown type, addresses of the wrong family, and an Outer Header
Creation with other parts than its description says (which has two octets in C). -/
def Refusable : IeVal → Prop
  | .networkInst _ => True
  | .nodeId (.fqdn _) => True
  | .nodeId (.other _) => True
  | .fSeid v => WrongFamily v.ip
  | .fTeid (.fixed _ ip) => WrongFamily ip
  | .ueIp v => WrongFamily v.ip
  | .ohc v => v.desc.length ≠ 2 ∨ announces v.desc ≠ present v
  | _ => False

/-- What the error code and the reports are for a struct that is not encoded, given a layout. -/
inductive Unencoded : Fields → Struct IeVal → Errno → List Report → Prop
  /-- A member has more values than allowed. -/
  | surplus {iei max m ty f vs s} : max < vs.length →
      Unencoded (.cons iei (.multi max m) ty f) (vs :: s) .ENOTSUP
        [{ ti := { tag := iei }, rc := .ENOTSUP, text := .surplus max }]
  /-- The encoder of a value fails. -/
  | value {iei kind k f vs s v} : Val.leaf v ∈ vs → v.kind = k → Refusable v →
      Unencoded (.cons iei kind (.ie k) f) (vs :: s) .EINVAL [{ ti := { tag := iei }, rc := .EINVAL, text := .notEncoded }]
  /-- Something within a grouped IE is not encoded: first this is reported, then in which IE it is. -/
  | inside {iei kind g f vs s s' rc l} : Val.node s' ∈ vs → Unencoded g s' rc l →
      Unencoded (.cons iei kind (.group g) f) (vs :: s) rc (l ++ [{ ti := { tag := iei }, rc := rc, text := .inside }])
  /-- So with a later member. -/
  | later {iei kind ty f vs s rc l} : Unencoded f s rc l → Unencoded (.cons iei kind ty f) (vs :: s) rc l

end Verif.Spec
