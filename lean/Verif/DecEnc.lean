/-
Model of src/libosmo-gtlv/gtlv_dec_enc.c: decoding TLV structures to structs and back, driven by
coding tables.
-/
import Verif.Gtlv

namespace Verif

/-- How a struct member holds an IE (gtlv_dec_enc.h:87-134): `mand` has neither presence flag nor
count, `opt` has a presence flag, `multi` has a count.  Entries with both are not modelled (the code
generator src/libosmo-gtlv/gtlv_gen.c never emits them). -/
inductive Kind where
  | mand
  | opt
  | multi (max mandatory : Nat)
  deriving DecidableEq, Repr

/-- How many values the struct member(s) of an entry can hold (gtlv_dec_enc.c:147). -/
def Kind.cap : Kind → Nat
  | .mand => 1
  | .opt => 1
  | .multi max _ => max

/-- A decoded value: a plain IE value of type `A`, or the sub-struct of a nested IE. -/
inductive Val (A : Type) where
  | leaf (a : A)
  | node (slots : List (List (Val A)))

/-- A decoded struct: for each entry of the coding table, the list of values that its member(s)
hold - the presence flag or count is the length of that list, array element `i` is list element
`i`.  Simplification: members of different entries are disjoint, `memb_array_pitch` is the size of
an element, and offsets are inside the struct (so `membof()`'s assertions, gtlv_dec_enc.c:58-59,
hold).  The struct starts out zeroed, as callers do (pfcp_msg.c:338). -/
abbrev Struct (A : Type) := List (List (Val A))

/-- `struct osmo_gtlv_coding` (gtlv_dec_enc.h:76-178).  `dec p n` reads a value of `n` octets from
the memory `p` that starts at `gtlv->val`; `enc` appends to the msgb; `none` is a NULL function
pointer.  For an entry with `nested_ies`, see `nestedCoding`. -/
structure Coding (A : Type) where
  ti : TagInst
  kind : Kind
  dec : Option (List UInt8 → Nat → Res (Val A))
  enc : Option (Val A → Msgb → Out Msgb)

variable {A : Type}

/-! ### Unordered decoding (gtlv_dec_enc.c:83-260) -/

/-- Size of `seen_ie_coding_entries[]` (gtlv_dec_enc.c:96). -/
def maxCodings : Nat := 4096

/-- What the search for a place to decode an IE to finds. -/
inductive Found where
  | slot (idx : Nat)          -- entry with room
  | full (maxAllowed : Nat)   -- end of table; `ie_max_allowed_count`
  | tooMany                   -- CHECK_SEEN() fails
  deriving DecidableEq, Repr

/-- The `do { } while (1)` search (gtlv_dec_enc.c:134-176).  "Already decoded" of a mandatory IE is
kept in `seen_ie_coding_entries[]` by the code; here it is the slot being non-empty. -/
def findSlot (ti : TagInst) : List (Coding A) → Struct A → (idx maxAllowed : Nat) → Found
  | c :: cs, s :: ss, idx, maxAllowed =>
    if tagInstCmp (some c.ti) (some ti) ≠ 0 then findSlot ti cs ss (idx + 1) maxAllowed
    else
      let maxAllowed := maxAllowed + c.kind.cap
      match c.kind with
      | .opt => if s.length ≠ 0 then findSlot ti cs ss (idx + 1) maxAllowed else .slot idx
      | .multi max _ =>
        if s.length ≥ max then findSlot ti cs ss (idx + 1) maxAllowed else .slot idx
      | .mand =>
        if idx ≥ maxCodings then .tooMany
        else if s.length ≠ 0 then findSlot ti cs ss (idx + 1) maxAllowed
        else .slot idx
  | _, _, _, maxAllowed => .full maxAllowed

/-- Write a decoded value to array element `s.length` of an entry's member; writing to an element
the member does not have is undefined behaviour. -/
def storeVal (k : Kind) (s : List (Val A)) (v : Val A) : Res (List (Val A)) :=
  if s.length < k.cap then .ok (s ++ [v]) else .ub

/-- Decode one IE (gtlv_dec_enc.c:130-236): find a place, decode, store. `p`, `n`: the value. -/
def decodeOne (codings : List (Coding A)) (slots : Struct A) (ti : TagInst) (p : List UInt8)
    (n : Nat) : Res (Struct A) :=
  match findSlot ti codings slots 0 0 with
  | .tooMany => .err .ENOTSUP
  | .full maxAllowed => if maxAllowed ≠ 0 then .err .ENOTSUP else .ok slots
  | .slot idx =>
    match codings[idx]?, slots[idx]? with
    | some c, some s =>
      match c.dec with
      | none => .err .EIO
      | some dec =>
        (dec p n).bind fun v =>
        (storeVal c.kind s v).bind fun s' =>
        if idx ≥ maxCodings then .err .ENOTSUP else .ok (slots.set idx s')
    | _, _ => .ub

/-- The `for (;;)` loop over the IEs (gtlv_dec_enc.c:113-237), at most `fuel` rounds. -/
def decodeUnorderedLoop (codings : List (Coding A)) : Nat → Struct A → Load → Res (Struct A)
  | 0, _, _ => .diverge
  | fuel + 1, slots, g =>
    match loadNext g with
    | .ok g' =>
      match g'.val with
      | none => .ok slots
      | some _ =>
        (decodeOne codings slots g'.ti g'.valueMem g'.len).bind fun slots' =>
          decodeUnorderedLoop codings fuel slots' g'
    | .err e _ => .err e
    | .abort => .abort
    | .ub => .ub
    | .diverge => .diverge

/-- The check for mandatory IEs at the end (gtlv_dec_enc.c:239-255). -/
def checkMandatory : List (Coding A) → Struct A → (idx : Nat) → Res Unit
  | c :: cs, s :: ss, idx =>
    match c.kind with
    | .opt => checkMandatory cs ss (idx + 1)
    | .multi _ mandatory =>
      if s.length < mandatory then .err .EINVAL else checkMandatory cs ss (idx + 1)
    | .mand =>
      if idx ≥ maxCodings then .err .ENOTSUP
      else if s.length = 0 then .err .EINVAL
      else checkMandatory cs ss (idx + 1)
  | _, _, _ => .ok ()

/-- The zeroed struct. -/
def emptyStruct (codings : List (Coding A)) : Struct A := codings.map fun _ => []

/-- `osmo_gtlvs_decode_unordered()` (gtlv_dec_enc.c:83-260).  The struct is not part of an error
result: after an error its contents are unspecified. -/
def decodeUnordered (codings : List (Coding A)) (g : Load) : Res (Struct A) :=
  (decodeUnorderedLoop codings (g.srcLen + 2) (emptyStruct codings) g.start).bind fun slots =>
  (checkMandatory codings slots 0).bind fun _ => .ok slots

/-! ### Ordered decoding (gtlv_dec_enc.c:276-420) -/

/-- Search a later entry with the same tag (gtlv_dec_enc.c:336-341): the number of entries before
it, the entry, and the entries behind it. -/
def findLater (ti : TagInst) : List (Coding A) → Option (Nat × Coding A × List (Coding A))
  | [] => none
  | c :: cs =>
    if tagInstCmp (some ti) (some c.ti) = 0 then some (0, c, cs)
    else (findLater ti cs).map fun (k, r) => (k + 1, r)

/-- Position in the table while decoding in order: the entry, the values in its member, the
entries behind it, and the (reversed) slots of the entries before it. -/
structure OrdPos (A : Type) where
  c : Coding A
  s : List (Val A)
  cs : List (Coding A)
  done : List (List (Val A))

/-- "This repeated IE is full" (gtlv_dec_enc.c:331-354): skip forward to a later entry with the
same tag.  Entries in between are passed over. -/
def ordTarget (pos : OrdPos A) (ti : TagInst) : Res (OrdPos A) :=
  match pos.c.kind with
  | .multi max _ =>
    if pos.s.length ≥ max then
      match findLater ti pos.cs with
      | none => .err .ENOTSUP
      | some (k, c', cs') =>
        .ok { c := c', s := [], cs := cs', done := List.replicate k [] ++ pos.s :: pos.done }
    else .ok pos
  | _ => .ok pos

mutual
/-- The `for` loop over the table (gtlv_dec_enc.c:288-417). `done`: slots of earlier entries, last
first. -/
def decodeOrderedOuter : Nat → List (Coding A) → List (List (Val A)) → Load → Res (Struct A)
  | 0, _, _, _ => .diverge
  | _ + 1, [], done, _ => .ok done.reverse
  | fuel + 1, c :: cs, done, g =>
    match nextByTagInst g c.ti with
    | .ok g' => decodeOrderedInner fuel { c := c, s := [], cs := cs, done := done } g'
    | .err .ENOENT _ =>
      match c.kind with
      | .opt => decodeOrderedOuter fuel cs ([] :: done) g
      | .mand => .err .ENOENT
      | .multi _ mandatory =>
        if 0 < mandatory then .err .ENOENT else decodeOrderedOuter fuel cs ([] :: done) g
    | .err e _ => .err e
    | .abort => .abort
    | .ub => .ub
    | .diverge => .diverge
/-- The inner `for (;;)` loop (gtlv_dec_enc.c:316-415): decode the IE the loader is at, and then
directly following IEs of the same tag if the entry is a repeated one. -/
def decodeOrderedInner : Nat → OrdPos A → Load → Res (Struct A)
  | 0, _, _ => .diverge
  | fuel + 1, pos, g =>
    (ordTarget pos g.ti).bind fun pos =>
    match pos.c.dec with
    | none => .err .EIO
    | some dec =>
      (dec g.valueMem g.len).bind fun v =>
      (storeVal pos.c.kind pos.s v).bind fun s =>
      match pos.c.kind with
      | .multi _ _ =>
        match peekTag g with
        | .ok ti =>
          if ti.cmp g.ti ≠ 0 then decodeOrderedOuter fuel pos.cs (s :: pos.done) g
          else
            match loadNext g with
            | .ok g' => decodeOrderedInner fuel { pos with s := s } g'
            | .err e _ => .err e
            | .abort => .abort
            | .ub => .ub
            | .diverge => .diverge
        | .err _ => decodeOrderedOuter fuel pos.cs (s :: pos.done) g
        | .abort => .abort
        | .ub => .ub
        | .diverge => .diverge
      | _ => decodeOrderedOuter fuel pos.cs (s :: pos.done) g
end

/-- `osmo_gtlvs_decode_ordered()` (gtlv_dec_enc.c:276-420). -/
def decodeOrdered (codings : List (Coding A)) (g : Load) : Res (Struct A) :=
  decodeOrderedOuter (codings.length + g.srcLen + 2) codings [] g.start

/-- `osmo_gtlvs_decode()` (gtlv_dec_enc.c:434-447); `none` is a NULL table. -/
def gtlvsDecode (g : Load) (ordered : Bool) : Option (List (Coding A)) → Res (Struct A)
  | none => .err .ENOTSUP
  | some codings => if ordered then decodeOrdered codings g else decodeUnordered codings g

/-! ### Encoding (gtlv_dec_enc.c:462-526) -/

/-- A call of `osmo_gtlv_put_tli()` or `osmo_gtlv_put_update_tl()` whose return code is ignored
(gtlv_dec_enc.c:497, 522). -/
def ignoreErr (r : Except Errno (Put × Msgb)) (p : Put) (b : Msgb) : Put × Msgb :=
  match r with
  | .ok pb => pb
  | .error _ => (p, b)

/-- `i >= ie_coding->count_max` for repeated IEs (gtlv_dec_enc.c:500). -/
def Kind.exceeds : Kind → Nat → Bool
  | .multi max _, i => decide (i ≥ max)
  | _, _ => false

/-- The loop over the values of one member (gtlv_dec_enc.c:494-523). -/
def encodeVals (cfg : Cfg) (c : Coding A) : List (Val A) → Nat → Put → Msgb → Out (Put × Msgb)
  | [], _, p, b => .ok (p, b)
  | v :: vs, i, p, b =>
    let (p, b) := ignoreErr (putTli cfg p b c.ti 0) p b
    if c.kind.exceeds i then .err .ENOTSUP (p, b)
    else
      match c.enc with
      | none => .ub
      | some enc =>
        match enc v b with
        | .ok b =>
          let (p, b) := ignoreErr (putUpdateTl cfg p b) p b
          encodeVals cfg c vs (i + 1) p b
        | .err e b => .err e (p, b)
        | .abort => .abort
        | .ub => .ub
        | .diverge => .diverge

/-- The values of a member that are encoded: the one value of a mandatory or present optional
member, or the array up to the count (gtlv_dec_enc.c:480-492). A mandatory member always has a
value in C; a struct without one is not the image of a C struct. -/
def membVals (k : Kind) (s : List (Val A)) : Option (List (Val A)) :=
  match k, s with
  | .mand, v :: _ => some [v]
  | .mand, [] => none
  | .opt, [] => some []
  | .opt, v :: _ => some [v]
  | .multi _ _, s => some s

/-- `osmo_gtlvs_encode()` (gtlv_dec_enc.c:462-526) for a non-NULL table.  The -EFAULT for a repeated
IE without array pitch (line 486) is a table error the code generator never makes; not modelled. -/
def encodeTable (cfg : Cfg) : List (Coding A) → Struct A → Put → Msgb → Out (Put × Msgb)
  | [], _, p, b => .ok (p, b)
  | _ :: _, [], _, _ => .ub
  | c :: cs, s :: ss, p, b =>
    match membVals c.kind s with
    | none => .ub
    | some vs =>
      match encodeVals cfg c vs 0 p b with
      | .ok (p, b) => encodeTable cfg cs ss p b
      | .err e pb => .err e pb
      | .abort => .abort
      | .ub => .ub
      | .diverge => .diverge

/-- Forget the `struct osmo_gtlv_put`. -/
def dropPut : Out (Put × Msgb) → Out Msgb
  | .ok (_, b) => .ok b
  | .err e (_, b) => .err e b
  | .abort => .abort
  | .ub => .ub
  | .diverge => .diverge

/-- `osmo_gtlvs_encode()` with a fresh `struct osmo_gtlv_put` on `b` (as in pfcp_msg.c:344-351 and,
for nested IEs, gtlv_dec_enc.c:506-512); `none` is a NULL table. -/
def gtlvsEncode (cfg : Cfg) (slots : Struct A) (b : Msgb) : Option (List (Coding A)) → Out Msgb
  | none => .err .ENOTSUP b
  | some codings => dropPut (encodeTable cfg codings slots {} b)

/-! ### Table entries -/

/-- An entry with `.nested_ies = inner` (gtlv_dec_enc.c:185-212, 357-383, 505-515): the value is
decoded and encoded as a TLV structure of its own. `ordered` is `nested_ies_ordered`, with
"same" resolved against the outer table. -/
def nestedCoding (ti : TagInst) (kind : Kind) (cfg : Cfg) (ordered : Bool)
    (inner : List (Coding A)) : Coding A where
  ti := ti
  kind := kind
  dec := some fun p n =>
    (gtlvsDecode { cfg := cfg, mem := p, srcLen := n } ordered (some inner)).bind fun s => .ok (.node s)
  enc := some fun v b =>
    match v with
    | .node s => gtlvsEncode cfg s b (some inner)
    | .leaf _ => .ub

/-- An entry with a `dec_func` and an `enc_func` (gtlv_dec_enc.c:214-224, 517-519). -/
def leafCoding (ti : TagInst) (kind : Kind) (dec : List UInt8 → Nat → Res A)
    (enc : A → Msgb → Out Msgb) : Coding A where
  ti := ti
  kind := kind
  dec := some fun p n => (dec p n).bind fun a => .ok (.leaf a)
  enc := some fun v b =>
    match v with
    | .leaf a => enc a b
    | .node _ => .ub

end Verif
