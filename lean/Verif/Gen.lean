/-
Model of src/libosmo-gtlv/gtlv_gen.c, which writes C structs and coding tables for a protocol definition, and of the
parts of C that give a meaning to what it writes.

Simplification: instead of the characters that printf() puts out, the functions in this file produce the declarations
that they stand for.  The characters are modelled in `GenText`, and PropsGenText proves that they read as these
declarations.
-/
import Verif.Strs

namespace Verif

/-! ### Protocol definitions (gtlv_gen.h) -/

/-- `struct osmo_gtlv_gen_ie` (gtlv_gen.h:93-124), without `nested_ies`; `addr` is its address.  `none` is NULL. -/
structure GInfo where
  addr : Nat
  decodedType : Option Text := none
  tagName : Option Text := none
  decEnc : Option Text := none
  specRef : Option Text := none
  deriving DecidableEq

/-- `struct osmo_gtlv_gen_ie_o` (gtlv_gen.h:54-90), without `ie`. -/
structure GOcc where
  name : Text
  optional : Bool := false
  multi : Nat := 0
  multiMandatory : Nat := 0
  inst : Option Text := none
  deriving DecidableEq

/-- An array of `struct osmo_gtlv_gen_ie_o`, up to the terminating `{}`, where `ie` has no `nested_ies`, or has. -/
inductive GIes where
  | nil
  | ie (o : GOcc) (i : GInfo) (rest : GIes)
  | group (o : GOcc) (i : GInfo) (nested : GIes) (rest : GIes)
  deriving DecidableEq

/-- `struct osmo_gtlv_gen_msg` (gtlv_gen.h:173-176) -/
structure GMsg where
  name : Text
  ies : GIes

/-- `struct osmo_gtlv_gen_cfg` (gtlv_gen.h:127-169), without `tag_enum`, which is not used, and `msg_defs`. -/
structure GCfg where
  protoName : Text
  messageTypePrefix : Text
  tagPrefix : Text
  decodedTypePrefix : Text
  specRefPrefix : Option Text := none
  messageTypeEnum : Option Text := none
  hHeader : Option Text := none
  cHeader : Option Text := none
  addEncToStr : Bool := false

/-! ### What is generated -/

/-- A member of a struct (gtlv_gen.c:94-107): `bool NAME_present;` if `presence`, then `TYPE NAME;`, or
`TYPE NAME[multi]; unsigned int NAME_count;` if `multi` is not 0. -/
structure CMemb where
  presence : Bool
  type : Text
  name : Text
  multi : Nat
  deriving DecidableEq

/-- `TYPE { MEMBERS };` where TYPE is "struct .." (gtlv_gen.c:138-141, 178-182). -/
structure CStruct where
  type : Text
  members : List CMemb
  deriving DecidableEq

/-- An element of a `struct osmo_gtlv_coding` array (gtlv_gen.c:258-293), without the functions or `nested_ies`:
`{ TAG, true, INST }`, `.memb_ofs = offsetof(OBJ, SUB.MEMB)`, `.has_presence_flag`, and for `multi` other than 0
`.has_count`, `.count_max` and `.count_mandatory`. -/
structure CHead where
  tag : Text
  inst : Option Text
  obj : Text
  sub : Text
  memb : Text
  presence : Bool
  multi : Nat
  mandatory : Nat
  deriving DecidableEq

/-- `.dec_func = PROTO_dec_SUFFIX, .enc_func = PROTO_enc_SUFFIX`, or `.nested_ies = ARRAY`. -/
inductive CBody where
  | func (suffix : Text)
  | nested (array : Text)
  deriving DecidableEq

structure CEntry where
  head : CHead
  body : CBody
  deriving DecidableEq

/-- `static const struct osmo_gtlv_coding NAME[] = { ENTRIES, {} };` -/
structure CArray where
  name : Text
  entries : List CEntry
  deriving DecidableEq

/-! ### The generator -/

/-- `seen_list` (gtlv_gen.c:39-44), latest entry first. -/
abbrev Seen := List (Text × Option Nat)

/-- `seen()` (gtlv_gen.c:46-64): `none` is exit(1).  An entry keeps 255 characters. -/
def seen (l : Seen) (s : Text) (fromDef : Option Nat) : Option (Bool × Seen) :=
  match l.find? fun e => e.1 = s with
  | some e => if fromDef ≠ e.2 then none else some (true, l)
  | none => some (false, (s.take 255, fromDef) :: l)

/-- `osmo_str_toupper()` (libosmocore, trusted): in a buffer of 128 octets. -/
def toUpper (s : Text) : Text := (s.take 127).map fun c => if 97 ≤ c ∧ c ≤ 122 then c - 32 else c

/-- `decoded_type()` (gtlv_gen.c:75-86): in a buffer of 255 octets. -/
def GCfg.decodedType (c : GCfg) (o : GOcc) (i : GInfo) : Text :=
  match i.decodedType with
  | some t => t
  | none => (c.decodedTypePrefix ++ i.tagName.getD o.name).take 254

/-- `write_ie_members()` (gtlv_gen.c:94-107). -/
def GIes.members (c : GCfg) : GIes → List CMemb
  | .nil => []
  | .ie o i r => ⟨o.optional, c.decodedType o i, o.name, o.multi⟩ :: r.members c
  | .group o i _ r => ⟨o.optional, c.decodedType o i, o.name, o.multi⟩ :: r.members c

/-- `write_ie_auto_structs()` (gtlv_gen.c:110-143). -/
def GIes.structs (c : GCfg) : GIes → Seen → Option (List CStruct × Seen)
  | .nil, l => some ([], l)
  | .ie _ _ r, l => r.structs c l
  | .group o i n r, l =>
    (n.structs c l).bind fun (s1, l) =>
    (seen l (c.decodedType o i) none).bind fun (b, l) =>
    (r.structs c l).bind fun (s2, l) =>
    some (s1 ++ ((if b then [] else [⟨c.decodedType o i, n.members c⟩]) ++ s2), l)

/-- The same for each message, with the same `seen_list`. -/
def eachMsg {α : Type} (f : GIes → Seen → Option (List α × Seen)) : List GMsg → Seen → Option (List α × Seen)
  | [], l => some ([], l)
  | m :: ms, l =>
    (f m.ies l).bind fun (a, l) =>
    (eachMsg f ms l).bind fun (b, l) => some (a ++ b, l)

/-- `struct PROTO_msg_NAME` (gtlv_gen.c:178) -/
def GCfg.msgType (c : GCfg) (name : Text) : Text := lit "struct " ++ c.protoName ++ lit "_msg_" ++ name

/-- `union PROTO_ies` (gtlv_gen.c:185) -/
def GCfg.unionType (c : GCfg) : Text := lit "union " ++ c.protoName ++ lit "_ies"

/-- The structs in the header: `write_auto_structs()`, then `write_msg_union()` (gtlv_gen.c:147-191, 202-203).
The union has the members `struct PROTO_msg_NAME NAME;`. -/
def writeH (c : GCfg) (ms : List GMsg) : Option (List CStruct) :=
  (eachMsg (GIes.structs c) ms []).bind fun (s, _) =>
  some (s ++ ms.map fun m => ⟨c.msgType m.name, m.ies.members c⟩)

/-- The suffix of the names of the functions (gtlv_gen.c:230-232, 272) -/
def suffixOf (o : GOcc) (i : GInfo) : Text := i.decEnc.getD (i.tagName.getD o.name)

/-- `write_extern_dec_enc()` (gtlv_gen.c:224-247): the suffixes of the functions that are declared. -/
def GIes.externs : GIes → Seen → Option (List Text × Seen)
  | .nil, l => some ([], l)
  | .ie o i r, l =>
    (seen l (suffixOf o i) none).bind fun (b, l) =>
    (r.externs l).bind fun (s, l) => some ((if b then [] else [suffixOf o i]) ++ s, l)
  | .group _ _ n r, l =>
    (n.externs l).bind fun (s1, l) =>
    (r.externs l).bind fun (s2, l) => some (s1 ++ s2, l)

/-- The head of an element (gtlv_gen.c:263-292). -/
def GCfg.head (c : GCfg) (obj sub : Text) (o : GOcc) (i : GInfo) : CHead :=
  { tag := c.tagPrefix ++ toUpper (i.tagName.getD o.name), inst := o.inst, obj, sub, memb := o.name
    presence := o.optional, multi := o.multi, mandatory := o.multiMandatory }

/-- The name of the array of nested IEs (gtlv_gen.c:270, 318-322). -/
def arrayName (o : GOcc) (i : GInfo) : Text := lit "ies_in_" ++ i.tagName.getD o.name

/-- `write_ies_array()` (gtlv_gen.c:257-294); `sub` is empty or the name of a member of the union. -/
def GIes.entries (c : GCfg) (obj sub : Text) : GIes → List CEntry
  | .nil => []
  | .ie o i r => ⟨c.head obj sub o i, .func (suffixOf o i)⟩ :: r.entries c obj sub
  | .group o i _ r => ⟨c.head obj sub o i, .nested (arrayName o i)⟩ :: r.entries c obj sub

/-- `write_nested_ies_array()` (gtlv_gen.c:306-327). -/
def GIes.arrays (c : GCfg) : GIes → Seen → Option (List CArray × Seen)
  | .nil, l => some ([], l)
  | .ie _ _ r, l => r.arrays c l
  | .group o i n r, l =>
    (n.arrays c l).bind fun (a1, l) =>
    (seen l (i.tagName.getD o.name) (some i.addr)).bind fun (b, l) =>
    (r.arrays c l).bind fun (a2, l) =>
    some (a1 ++ ((if b then [] else [⟨arrayName o i, n.entries c (c.decodedType o i) []⟩]) ++ a2), l)

/-- The name of the array of a message (gtlv_gen.c:360, 368). -/
def msgArrayName (m : GMsg) : Text := lit "ies_in_msg_" ++ m.name

/-- The array of a message (gtlv_gen.c:357-365). -/
def msgArray (c : GCfg) (m : GMsg) : CArray := ⟨msgArrayName m, m.ies.entries c c.unionType m.name⟩

/-- The declarations in the C file. `msgs`: the elements `[MESSAGE_TYPE] = ARRAY` of `msg_defs[]`. -/
structure GenC where
  externs : List Text
  arrays : List CArray
  msgs : List (Text × Text)

/-- `write_c()` (gtlv_gen.c:332-370). -/
def writeC (c : GCfg) (ms : List GMsg) : Option GenC :=
  (eachMsg GIes.externs ms []).bind fun (e, _) =>
  (eachMsg (GIes.arrays c) ms []).bind fun (a, _) =>
  some { externs := e, arrays := a ++ ms.map (msgArray c)
         msgs := ms.map fun m => (c.messageTypePrefix ++ toUpper m.name, msgArrayName m) }

/-! ### What it means (C) -/

/-- An array of `struct osmo_gtlv_coding` where `nested_ies` are followed. -/
inductive Tab where
  | nil
  | func (h : CHead) (suffix : Text) (rest : Tab)
  | nested (h : CHead) (array : Tab) (rest : Tab)
  deriving DecidableEq

/-- The arrays that are declared, latest first. -/
abbrev CEnv := List (Text × Tab)

/-- `none`: there is no such array. -/
def CEnv.get (env : CEnv) (name : Text) : Option Tab := (env.find? fun e => e.1 = name).map (·.2)

/-- The array with these elements; `none` if one refers to an array that is not declared. -/
def resolve (env : CEnv) : List CEntry → Option Tab
  | [] => some .nil
  | ⟨h, .func s⟩ :: es => (resolve env es).bind fun t => some (.func h s t)
  | ⟨h, .nested a⟩ :: es => (env.get a).bind fun n => (resolve env es).bind fun t => some (.nested h n t)

/-- Compile array declarations, one after the other; `none` if the compiler reports an error: a name is declared
twice, or used before it is declared. -/
def compile : List CArray → CEnv → Option CEnv
  | [], env => some env
  | a :: as, env =>
    if (env.get a.name).isSome then none
    else (resolve env a.entries).bind fun t => compile as ((a.name, t) :: env)

/-- `PROTO_get_msg_coding()` (generated by gtlv_gen.c:371-380): `values` are the values of the constants; if an index
is initialised twice, the last element counts. -/
def GenC.getMsgCoding (g : GenC) (values : Text → Option Nat) (env : CEnv) (type : Nat) : Option Tab :=
  (g.msgs.reverse.find? fun d => values d.1 = some type).bind fun d => env.get d.2

/-- The names that a member declares. -/
def CMemb.names (m : CMemb) : List Text :=
  (if m.presence then [m.name ++ lit "_present"] else []) ++ [m.name] ++
    if m.multi = 0 then [] else [m.name ++ lit "_count"]

/-- Compile struct declarations; `none` if the compiler reports an error: a struct is defined twice, or has two
members of the same name. -/
def compileH : List CStruct → List CStruct → Option (List CStruct)
  | [], env => some env
  | s :: ss, env =>
    if (env.any fun x => x.type = s.type) || !decide ((s.members.flatMap CMemb.names).Nodup) then none
    else compileH ss (s :: env)

/-- The members of a struct. -/
def membersOf (env : List CStruct) (type : Text) : Option (List CMemb) :=
  (env.find? fun s => s.type = type).map (·.members)

end Verif
