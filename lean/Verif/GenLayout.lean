/-
What C makes of the offsets in a generated table: `offsetof()`, `OSMO_MEMB_ARRAY_PITCH()` and the types of members.
-/
import Verif.Gen
import Verif.Layout

namespace Verif

/-- What the compiler decides: `sizeof()` of a type, and `offsetof()` of what is declared in a struct. -/
structure Abi where
  size : Text → Nat
  ofs : (struct name : Text) → Nat

/-- The functions `PROTO_dec_SUFFIX()` and `PROTO_enc_SUFFIX()`, and the type that their pointers to a member are for.  `zero`: the
value that zero bytes are; `left`: what the decoder leaves if it fails. -/
structure CFn (A : Type) where
  type : Text
  zero : A
  left : List UInt8 → Nat → Nat → Cell A
  dec : List UInt8 → Nat → Res A
  enc : A → Msgb → Out Msgb

/-- What a generated C file is compiled with: its protocol, the structs of its header, the values of constants, and the functions;
and how its tables are used, by osmo_gtlvs_decode() and osmo_gtlvs_encode(). -/
structure CLib (A : Type) where
  proto : GCfg
  structs : List CStruct
  abi : Abi
  value : Text → Option Nat
  fn : Text → Option (CFn A)
  cfg : Cfg
  ordered : Bool

variable {A : Type}

/-- The struct in which `offsetof(OBJ, SUB.MEMB)` looks for MEMB (gtlv_gen.c:268, 360-362): OBJ is a struct, or, if SUB is given,
the union of all messages; its members are all at offset 0 (C11 6.7.2.1). -/
def CLib.structOf (l : CLib A) (h : CHead) : Option Text :=
  if h.sub = [] then some h.obj
  else if h.obj = l.proto.unionType then some (l.proto.msgType h.sub)
  else none

/-- `offsetof()`: the compiler reports an error (`none`) if there is no such name in the struct. -/
def CLib.offsetof (l : CLib A) (struct name : Text) : Option Nat :=
  (membersOf l.structs struct).bind fun ms =>
  if name ∈ ms.flatMap CMemb.names then some (l.abi.ofs struct name) else none

/-- The type of a member, or of the elements of an array. -/
def CLib.typeof (l : CLib A) (struct name : Text) : Option Text :=
  (membersOf l.structs struct).bind fun ms => (ms.find? fun m => m.name = name).map (·.type)

/-- `{ TAG, true, INST }` (gtlv_gen.c:264-267) -/
def CLib.tagOf (l : CLib A) (h : CHead) : Option TagInst :=
  (l.value h.tag).bind fun t =>
  match h.inst with
  | none => some { tag := t }
  | some i => (l.value i).bind fun i => some { tag := t, inst := some i }

/-- A count, a presence flag, or neither (gtlv_gen.c:279-291).  Simplification: entries with both are not modelled (`none`). -/
def CHead.kind (h : CHead) : Option Kind :=
  if h.multi ≠ 0 then if h.presence then none else some (.multi h.multi h.mandatory)
  else some (if h.presence then .opt else .mand)

/-- The offsets of an entry (gtlv_gen.c:268, 279-291), and the type of the member. -/
def CLib.place (l : CLib A) (h : CHead) : Option (Place × Text) :=
  (l.tagOf h).bind fun ti => h.kind.bind fun kind => (l.structOf h).bind fun s =>
  (l.offsetof s h.memb).bind fun ofs => (l.typeof s h.memb).bind fun type =>
  match kind with
  | .mand => some ({ ti, kind, ofs }, type)
  | .opt => (l.offsetof s (h.memb ++ lit "_present")).bind fun flagOfs => some ({ ti, kind, ofs, flagOfs }, type)
  | .multi _ _ =>
    (l.offsetof s (h.memb ++ lit "_count")).bind fun countOfs => some ({ ti, kind, ofs, pitch := l.abi.size type, countOfs }, type)

/-- A pair of functions as the type of a member. -/
def CFn.leaf (f : CFn A) (abi : Abi) : Leaf A :=
  { size := abi.size f.type, zero := f.zero, left := f.left, dec := f.dec, enc := f.enc }

/-- The array in memory.  The generator sets neither `nested_ies_cfg` nor `nested_ies_ordered`, so that nested IEs are decoded and
encoded as the message (gtlv_dec_enc.c:185-205). -/
def CLib.table (l : CLib A) : Tab → Option (MTab A)
  | .nil => some .nil
  | .func h s r =>
    (l.place h).bind fun x => (l.fn s).bind fun f => (l.table r).bind fun r => some (.cons x.1 (.leaf (f.leaf l.abi)) r)
  | .nested h n r =>
    (l.place h).bind fun x => (l.table n).bind fun n => (l.table r).bind fun r =>
    some (.cons x.1 (.nested (l.abi.size x.2) l.cfg l.ordered n) r)

/-- `PROTO_ies_decode()` (generated by gtlv_gen.c:379-386): `tab` is what `PROTO_get_msg_coding()` returns; `m` is the union, with
`sizeof(*dst)` bytes. -/
def CLib.iesDecode [DecidableEq A] (l : CLib A) (tab : Option Tab) (g : Load) (m : Mem A) : Out (Mem A) :=
  gtlvsDecodeM 0 g l.ordered m ((tab.bind l.table).map MTab.entries)

/-- `PROTO_ies_encode()` (generated by gtlv_gen.c:388-394). -/
def CLib.iesEncode [DecidableEq A] (l : CLib A) (tab : Option Tab) (m : Mem A) (b : Msgb) : Out Msgb :=
  gtlvsEncodeM l.cfg 0 m b ((tab.bind l.table).map MTab.entries)

end Verif
