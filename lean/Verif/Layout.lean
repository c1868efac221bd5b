/-
Model of src/libosmo-gtlv/gtlv_dec_enc.c at the level of the memory of the decoded struct: members are found by their
offsets (`memb_ofs`, `memb_array_pitch`, `presence_flag_ofs`, `count_ofs`), as in the code.  `DecEnc` abstracts from this: there,
a member is a slot.
-/
import Verif.DecEnc

namespace Verif

/-! ### Memory -/

/-- What a byte of the decoded struct contains: a number, or part `i` of an IE value `a` that a decoding function or the
application has put there. -/
inductive Cell (A : Type) where
  | raw (b : UInt8)
  | part (a : A) (i : Nat)
  deriving DecidableEq

/-- The decoded struct, as passed to osmo_gtlvs_decode() with `decoded_struct_size`: what its bytes contain. -/
structure Mem (A : Type) where
  size : Nat
  at_ : Nat → Cell A

/-- The struct is all zero. -/
def Mem.zero (A : Type) (size : Nat) : Mem A := { size, at_ := fun _ => .raw 0 }

variable {A : Type}

/-- Write `k` bytes at `a`; writing outside of the struct is undefined behaviour. -/
def Mem.store (m : Mem A) (a k : Nat) (f : Nat → Cell A) : Res (Mem A) :=
  if a + k ≤ m.size then .ok { m with at_ := fun i => if a ≤ i ∧ i < a + k then f (i - a) else m.at_ i } else .ub

/-- The contents of one byte as a number; a part of an IE value is not a number. -/
def Mem.byte (m : Mem A) (a : Nat) : Res UInt8 :=
  if a < m.size then match m.at_ a with | .raw b => .ok b | .part _ _ => .ub else .ub

/-- Read a `bool` -/
def Mem.flag (m : Mem A) (a : Nat) : Res Bool := (m.byte a).bind fun b => .ok (b ≠ 0)

/-- Read an `unsigned int` of 4 bytes.  Simplification: the byte order is big-endian (nothing depends on it). -/
def Mem.count (m : Mem A) (a : Nat) : Res Nat :=
  (m.byte a).bind fun b0 => (m.byte (a + 1)).bind fun b1 => (m.byte (a + 2)).bind fun b2 => (m.byte (a + 3)).bind fun b3 =>
  .ok (loadBE [b0, b1, b2, b3])

/-- Write a `bool` -/
def Mem.setFlag (m : Mem A) (a : Nat) (b : Bool) : Res (Mem A) := m.store a 1 fun _ => .raw (if b then 1 else 0)

/-- Write an `unsigned int` -/
def Mem.setCount (m : Mem A) (a n : Nat) : Res (Mem A) :=
  m.store a 4 fun i => .raw ((storeBE 4 n).getD i 0)

/-- `membof()` (gtlv_dec_enc.c:53-67) of the sub-struct at `obj`: the address, asserted to be in the struct. -/
def membof (m : Mem A) (obj ofs : Nat) : Res Nat := if obj + ofs < m.size then .ok (obj + ofs) else .abort

/-! ### Coding tables -/

/-- `struct osmo_gtlv_coding` (gtlv_dec_enc.h:76-178) with its offsets.  `dec` and `enc` are what is done at the address of a
member: a call of `dec_func`, `enc_func`, or decoding or encoding of `nested_ies`. -/
structure MCoding (A : Type) where
  ti : TagInst
  kind : Kind
  ofs : Nat
  pitch : Nat
  flagOfs : Nat
  countOfs : Nat
  dec : Option (Nat → List UInt8 → Nat → Mem A → Out (Mem A))
  enc : Option (Nat → Mem A → Msgb → Out Msgb)

/-- Continue with the value of an expression; `s` is the state at this point. -/
def Res.out {α σ : Type} (r : Res α) (s : σ) (f : α → Out σ) : Out σ :=
  match r with
  | .ok a => f a
  | .err e => .err e s
  | .abort => .abort
  | .ub => .ub
  | .diverge => .diverge

/-- `*presence_flag_p`, `*multi_count_p` (gtlv_dec_enc.c:150-154, 240-246, 296-300): how many values the member has by its flag or
count; `none` if it has neither. -/
def MCoding.filled (c : MCoding A) (m : Mem A) (obj : Nat) : Res (Option Nat) :=
  match c.kind with
  | .mand => .ok none
  | .opt => (membof m obj c.flagOfs).bind fun a => (m.flag a).bind fun b => .ok (some (if b then 1 else 0))
  | .multi _ _ => (membof m obj c.countOfs).bind fun a => (m.count a).bind fun n => .ok (some n)

/-- `memb_next_array_idx` (gtlv_dec_enc.c:180, 323) -/
def MCoding.next (c : MCoding A) (m : Mem A) (obj : Nat) : Res Nat :=
  match c.kind with
  | .multi _ _ => (membof m obj c.countOfs).bind fun a => m.count a
  | _ => .ok 0

/-- `memb_ofs + memb_next_array_idx * memb_array_pitch` (gtlv_dec_enc.c:181, 324, 503), in unsigned int. -/
def MCoding.elem (c : MCoding A) (i : Nat) : Nat := (c.ofs + i * c.pitch) % 2 ^ 32

/-- `(*multi_count_p)++`, `*presence_flag_p = true` (gtlv_dec_enc.c:226-235, 394-405). -/
def MCoding.mark (c : MCoding A) (m : Mem A) (obj : Nat) : Res (Mem A) :=
  match c.kind with
  | .mand => .ok m
  | .opt => m.setFlag (obj + c.flagOfs) true
  | .multi _ _ => (m.count (obj + c.countOfs)).bind fun n => m.setCount (obj + c.countOfs) ((n + 1) % 2 ^ 32)

/-- The error in the protocol definition that osmo_gtlvs_encode() reports (gtlv_dec_enc.c:486-489). -/
def MCoding.noPitch (c : MCoding A) : Bool :=
  match c.kind with
  | .multi _ _ => c.pitch == 0
  | _ => false

/-! ### Unordered decoding -/

/-- The search of `findSlot` (gtlv_dec_enc.c:134-176).  `seen` are the indexes that are true in seen_ie_coding_entries[]. -/
def findM (m : Mem A) (obj : Nat) (seen : List Nat) (ti : TagInst) : List (MCoding A) → (idx maxAllowed : Nat) → Res Found
  | [], _, maxAllowed => .ok (.full maxAllowed)
  | c :: cs, idx, maxAllowed =>
    if tagInstCmp (some c.ti) (some ti) ≠ 0 then findM m obj seen ti cs (idx + 1) maxAllowed
    else
      let maxAllowed := maxAllowed + c.kind.cap
      (c.filled m obj).bind fun
        | some n => if n ≥ c.kind.cap then findM m obj seen ti cs (idx + 1) maxAllowed else .ok (.slot idx)
        | none =>
          if idx ≥ maxCodings then .ok .tooMany
          else if seen.contains idx then findM m obj seen ti cs (idx + 1) maxAllowed
          else .ok (.slot idx)

/-- Decode one IE (gtlv_dec_enc.c:130-236). -/
def decodeOneM (cs : List (MCoding A)) (obj : Nat) (ti : TagInst) (p : List UInt8) (n : Nat) (m : Mem A) (seen : List Nat) :
    Out (Mem A × List Nat) :=
  (findM m obj seen ti cs 0 0).out (m, seen) fun
    | .tooMany => .err .ENOTSUP (m, seen)
    | .full maxAllowed => if maxAllowed ≠ 0 then .err .ENOTSUP (m, seen) else .ok (m, seen)
    | .slot idx =>
      match cs[idx]? with
      | none => .ub
      | some c =>
        (c.next m obj).out (m, seen) fun i =>
        match c.dec with
        | none => .err .EIO (m, seen)
        | some dec =>
          match dec (obj + c.elem i) p n m with
          | .ok m' =>
            (c.mark m' obj).out (m', seen) fun m'' =>
            if idx ≥ maxCodings then .err .ENOTSUP (m'', seen) else .ok (m'', idx :: seen)
          | .err e m' => .err e (m', seen)
          | .abort => .abort
          | .ub => .ub
          | .diverge => .diverge

/-- The loop over the IEs (gtlv_dec_enc.c:113-237). -/
def decodeLoopM (cs : List (MCoding A)) (obj : Nat) : Nat → Load → Mem A → List Nat → Out (Mem A × List Nat)
  | 0, _, _, _ => .diverge
  | fuel + 1, g, m, seen =>
    match loadNext g with
    | .ok g' =>
      match g'.val with
      | none => .ok (m, seen)
      | some _ =>
        match decodeOneM cs obj g'.ti g'.valueMem g'.len m seen with
        | .ok (m', seen') => decodeLoopM cs obj fuel g' m' seen'
        | .err e s => .err e s
        | .abort => .abort
        | .ub => .ub
        | .diverge => .diverge
    | .err e _ => .err e (m, seen)
    | .abort => .abort
    | .ub => .ub
    | .diverge => .diverge

/-- The check for mandatory IEs (gtlv_dec_enc.c:239-255). -/
def checkM (m : Mem A) (obj : Nat) (seen : List Nat) : List (MCoding A) → (idx : Nat) → Res Unit
  | [], _ => .ok ()
  | c :: cs, idx =>
    match c.kind with
    | .opt => checkM m obj seen cs (idx + 1)
    | .multi _ mandatory =>
      (membof m obj c.countOfs).bind fun a => (m.count a).bind fun n =>
      if n < mandatory then .err .EINVAL else checkM m obj seen cs (idx + 1)
    | .mand =>
      if idx ≥ maxCodings then .err .ENOTSUP
      else if seen.contains idx then checkM m obj seen cs (idx + 1)
      else .err .EINVAL

/-- `osmo_gtlvs_decode_unordered()` (gtlv_dec_enc.c:83-260), of the sub-struct at `obj`. -/
def decodeUnorderedM (cs : List (MCoding A)) (obj : Nat) (g : Load) (m : Mem A) : Out (Mem A) :=
  (membof m 0 obj).out m fun _ =>
  match decodeLoopM cs obj (g.srcLen + 2) g.start m [] with
  | .ok (m', seen) => (checkM m' obj seen cs 0).out m' fun _ => .ok m'
  | .err e (m', _) => .err e m'
  | .abort => .abort
  | .ub => .ub
  | .diverge => .diverge

/-! ### Ordered decoding -/

/-- Search a later entry with the same tag (gtlv_dec_enc.c:336-341): the entry, and the entries behind it. -/
def findLaterM (ti : TagInst) : List (MCoding A) → Option (MCoding A × List (MCoding A))
  | [] => none
  | c :: cs => if tagInstCmp (some ti) (some c.ti) = 0 then some (c, cs) else findLaterM ti cs

/-- Which entry the IE is decoded by, the entries behind it, and the array index (gtlv_dec_enc.c:320-354). -/
def ordTargetM (m : Mem A) (obj : Nat) (ti : TagInst) (c : MCoding A) (cs : List (MCoding A)) :
    Res (MCoding A × List (MCoding A) × Nat) :=
  (c.next m obj).bind fun i =>
  match c.kind with
  | .multi max _ =>
    if i ≥ max then
      match findLaterM ti cs with
      | none => .err .ENOTSUP
      | some (c', cs') => (c'.filled m obj).bind fun _ => (c'.next m obj).bind fun i => .ok (c', cs', i)
    else .ok (c, cs, i)
  | _ => .ok (c, cs, i)

mutual
/-- The loop over the table (gtlv_dec_enc.c:288-417). -/
def decodeOuterM (obj : Nat) : Nat → List (MCoding A) → Load → Mem A → Out (Mem A)
  | 0, _, _, _ => .diverge
  | _ + 1, [], _, m => .ok m
  | fuel + 1, c :: cs, g, m =>
    (c.filled m obj).out m fun n =>
    match nextByTagInst g c.ti with
    | .ok g' => decodeInnerM obj fuel c cs g' m
    | .err .ENOENT _ =>
      match c.kind with
      | .opt => (m.setFlag (obj + c.flagOfs) false).out m fun m => decodeOuterM obj fuel cs g m
      | .mand => .err .ENOENT m
      | .multi _ mandatory =>
        if n.getD 0 < mandatory then .err .ENOENT m else decodeOuterM obj fuel cs g m
    | .err e _ => .err e m
    | .abort => .abort
    | .ub => .ub
    | .diverge => .diverge
/-- The loop over repetitions (gtlv_dec_enc.c:316-415). -/
def decodeInnerM (obj : Nat) : Nat → MCoding A → List (MCoding A) → Load → Mem A → Out (Mem A)
  | 0, _, _, _, _ => .diverge
  | fuel + 1, c, cs, g, m =>
    (ordTargetM m obj g.ti c cs).out m fun (c, cs, i) =>
    match c.dec with
    | none => .err .EIO m
    | some dec =>
      match dec (obj + c.elem i) g.valueMem g.len m with
      | .ok m =>
        (c.mark m obj).out m fun m =>
        match c.kind with
        | .multi _ _ =>
          match peekTag g with
          | .ok ti =>
            if ti.cmp g.ti ≠ 0 then decodeOuterM obj fuel cs g m
            else
              match loadNext g with
              | .ok g' => decodeInnerM obj fuel c cs g' m
              | .err e _ => .err e m
              | .abort => .abort
              | .ub => .ub
              | .diverge => .diverge
          | .err _ => decodeOuterM obj fuel cs g m
          | .abort => .abort
          | .ub => .ub
          | .diverge => .diverge
        | _ => decodeOuterM obj fuel cs g m
      | .err e m => .err e m
      | .abort => .abort
      | .ub => .ub
      | .diverge => .diverge
end

/-- `osmo_gtlvs_decode_ordered()` (gtlv_dec_enc.c:276-420). -/
def decodeOrderedM (cs : List (MCoding A)) (obj : Nat) (g : Load) (m : Mem A) : Out (Mem A) :=
  (membof m 0 obj).out m fun _ => decodeOuterM obj (cs.length + g.srcLen + 2) cs g.start m

/-- `osmo_gtlvs_decode()` (gtlv_dec_enc.c:434-447); `none` is a NULL table. -/
def gtlvsDecodeM (obj : Nat) (g : Load) (ordered : Bool) (m : Mem A) : Option (List (MCoding A)) → Out (Mem A)
  | none => .err .ENOTSUP m
  | some cs => if ordered then decodeOrderedM cs obj g m else decodeUnorderedM cs obj g m

/-! ### Encoding -/

/-- The loop over the elements of one member (gtlv_dec_enc.c:494-523): `n` are left, the next is element `i`. -/
def encodeElemsM (cfg : Cfg) (c : MCoding A) (obj : Nat) (m : Mem A) : (n i : Nat) → Put → Msgb → Out (Put × Msgb)
  | 0, _, p, b => .ok (p, b)
  | n + 1, i, p, b =>
    let (p, b) := ignoreErr (putTli cfg p b c.ti 0) p b
    if c.kind.exceeds i then .err .ENOTSUP (p, b)
    else
      match c.enc with
      | none => .ub
      | some enc =>
        match enc (obj + c.elem i) m b with
        | .ok b =>
          let (p, b) := ignoreErr (putUpdateTl cfg p b) p b
          encodeElemsM cfg c obj m n (i + 1) p b
        | .err e b => .err e (p, b)
        | .abort => .abort
        | .ub => .ub
        | .diverge => .diverge

/-- `osmo_gtlvs_encode()` (gtlv_dec_enc.c:462-526), of the sub-struct at `obj`. -/
def encodeTableM (cfg : Cfg) (obj : Nat) (m : Mem A) : List (MCoding A) → Put → Msgb → Out (Put × Msgb)
  | [], p, b => .ok (p, b)
  | c :: cs, p, b =>
    (c.filled m obj).out (p, b) fun n =>
    if c.noPitch then .err .EFAULT (p, b)
    else
      match encodeElemsM cfg c obj m (n.getD 1) 0 p b with
      | .ok (p, b) => encodeTableM cfg obj m cs p b
      | .err e pb => .err e pb
      | .abort => .abort
      | .ub => .ub
      | .diverge => .diverge

/-- `osmo_gtlvs_encode()` with a fresh `struct osmo_gtlv_put` on `b`; the assertion is before the check for NULL. -/
def gtlvsEncodeM (cfg : Cfg) (obj : Nat) (m : Mem A) (b : Msgb) (t : Option (List (MCoding A))) : Out Msgb :=
  (membof m 0 obj).out b fun _ =>
  match t with
  | none => .err .ENOTSUP b
  | some cs => dropPut (encodeTableM cfg obj m cs {} b)

/-! ### Table entries -/

/-- The type of a member for an IE with a `dec_func` and an `enc_func`: its size, and the value that it has if all its bytes are
zero.  `left`: what `dec_func` leaves in the member when it fails. -/
structure Leaf (A : Type) where
  size : Nat
  zero : A
  left : List UInt8 → Nat → Nat → Cell A
  dec : List UInt8 → Nat → Res A
  enc : A → Msgb → Out Msgb

/-- `iec->dec_func(decoded_struct, membof(obj, obj_maxlen, memb_ofs), gtlv)` (gtlv_dec_enc.c:214-224, 385-392): writes the member. -/
def Leaf.decM (l : Leaf A) (a : Nat) (p : List UInt8) (n : Nat) (m : Mem A) : Out (Mem A) :=
  (membof m 0 a).out m fun a =>
  match l.dec p n with
  | .ok v => (m.store a l.size (Cell.part v)).out m .ok
  | .err e => (m.store a l.size (l.left p n)).out m (.err e)
  | .abort => .abort
  | .ub => .ub
  | .diverge => .diverge

/-- The value in a member; undefined behaviour if what is there is not a value of its type. -/
def Leaf.load [DecidableEq A] (l : Leaf A) (m : Mem A) (a : Nat) : Res A :=
  if a + l.size ≤ m.size then
    match m.at_ a with
    | .part v _ => if (List.range l.size).all fun i => m.at_ (a + i) = .part v i then .ok v else .ub
    | .raw _ => if (List.range l.size).all fun i => m.at_ (a + i) = .raw 0 then .ok l.zero else .ub
  else .ub

/-- `ie_coding->enc_func(gtlv, decoded_struct, membof_const(obj, obj_maxlen, memb_ofs))` (gtlv_dec_enc.c:517-519): reads the
member. -/
def Leaf.encM [DecidableEq A] (l : Leaf A) (a : Nat) (m : Mem A) (b : Msgb) : Out Msgb :=
  (membof m 0 a).out b fun a => (l.load m a).out b fun v => l.enc v b

/-- Tag, kind and offsets of an entry. -/
structure Place where
  ti : TagInst
  kind : Kind
  ofs : Nat
  pitch : Nat := 0
  flagOfs : Nat := 0
  countOfs : Nat := 0
  deriving DecidableEq

mutual
/-- What an entry decodes: an IE with its own functions, or nested IEs, to a struct of some size, with `nested_ies_cfg` and
`nested_ies_ordered` as resolved (gtlv_dec_enc.c:185-205, 357-376). -/
inductive MTy (A : Type) where
  | leaf (l : Leaf A)
  | nested (size : Nat) (cfg : Cfg) (ordered : Bool) (t : MTab A)
/-- An array of `struct osmo_gtlv_coding`. -/
inductive MTab (A : Type) where
  | nil
  | cons (p : Place) (ty : MTy A) (rest : MTab A)
end

mutual
/-- The entry, with its offsets. -/
def MTy.entry [DecidableEq A] (p : Place) : MTy A → MCoding A
  | .leaf l => { ti := p.ti, kind := p.kind, ofs := p.ofs, pitch := p.pitch, flagOfs := p.flagOfs, countOfs := p.countOfs
                 dec := some l.decM, enc := some l.encM }
  | .nested _ cfg ordered t =>
    { ti := p.ti, kind := p.kind, ofs := p.ofs, pitch := p.pitch, flagOfs := p.flagOfs, countOfs := p.countOfs
      dec := some fun a v n m => gtlvsDecodeM (a % 2 ^ 32) { cfg := cfg, mem := v, srcLen := n } ordered m (some t.entries)
      enc := some fun a m b => gtlvsEncodeM cfg (a % 2 ^ 32) m b (some t.entries) }
/-- The array. -/
def MTab.entries [DecidableEq A] : MTab A → List (MCoding A)
  | .nil => []
  | .cons p ty r => ty.entry p :: r.entries
end

end Verif
