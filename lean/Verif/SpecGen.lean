/-
Specification of what gtlv_gen.c must generate: the coding table that a protocol definition stands for, and which
members its structs must have (gtlv_gen.h).
-/
import Verif.Gen

namespace Verif.Spec
open Verif

/-- The occurrences of IEs with nested IEs, at any depth. -/
def groupsIn : GIes → List (GOcc × GInfo × GIes)
  | .nil => []
  | .ie _ _ r => groupsIn r
  | .group o i n r => groupsIn n ++ (o, i, n) :: groupsIn r

/-- The occurrences of all IEs, at any depth. -/
def occsIn : GIes → List (GOcc × GInfo)
  | .nil => []
  | .ie o i r => (o, i) :: occsIn r
  | .group o i n r => occsIn n ++ (o, i) :: occsIn r

/-- The occurrences of IEs without nested IEs, at any depth. -/
def leavesIn : GIes → List (GOcc × GInfo)
  | .nil => []
  | .ie o i r => (o, i) :: leavesIn r
  | .group _ _ n r => leavesIn n ++ leavesIn r

/-- ... in all messages. -/
def groups (ms : List GMsg) : List (GOcc × GInfo × GIes) := ms.flatMap fun m => groupsIn m.ies
def occs (ms : List GMsg) : List (GOcc × GInfo) := ms.flatMap fun m => occsIn m.ies
def leaves (ms : List GMsg) : List (GOcc × GInfo) := ms.flatMap fun m => leavesIn m.ies

/-- The name that tags, types and functions are derived from: `tag_name`, or the name of the member. -/
def nameOf (o : GOcc) (i : GInfo) : Text := i.tagName.getD o.name

/-- The C type of a member: `decoded_type`, or the prefix and the name. -/
def typeOf (c : GCfg) (o : GOcc) (i : GInfo) : Text := i.decodedType.getD (c.decodedTypePrefix ++ nameOf o i)

/-- Capital letters. -/
def capitals (s : Text) : Text := s.map fun c => if 97 ≤ c ∧ c ≤ 122 then c - 32 else c

/-- Definitions are identified by their address: an object has one address, and at one address is one object. -/
def Identified (ms : List GMsg) : Prop :=
  ∀ o i n o' i' n', (o, i, n) ∈ groups ms → (o', i', n') ∈ groups ms → i.addr = i'.addr → i = i' ∧ n = n'

/-- Messages have names, and no name exceeds the buffers of the generator: 127 characters for names, 254 and 255 for
types. -/
structure Short (c : GCfg) (ms : List GMsg) : Prop where
  name : ∀ o i, (o, i) ∈ occs ms → (nameOf o i).length ≤ 127
  msg : ∀ m ∈ ms, m.name ≠ [] ∧ m.name.length ≤ 127
  derived : ∀ o i, (o, i) ∈ occs ms → i.decodedType = none → (typeOf c o i).length ≤ 254
  type : ∀ o i, (o, i) ∈ occs ms → (typeOf c o i).length ≤ 255
  func : ∀ o i, (o, i) ∈ occs ms → (i.decEnc.getD (nameOf o i)).length ≤ 255

/-- The table that a list of IEs stands for: in the same order, each with its tag, the member of the struct `obj`
(or of `obj.sub`) where it is decoded to, presence flag, counts, and functions or the table of its nested IEs, whose
members are in the struct of its type. -/
def tableOf (c : GCfg) : (obj sub : Text) → GIes → Tab
  | _, _, .nil => .nil
  | obj, sub, .ie o i r =>
    .func ⟨c.tagPrefix ++ capitals (nameOf o i), o.inst, obj, sub, o.name, o.optional, o.multi, o.multiMandatory⟩
      (i.decEnc.getD (nameOf o i)) (tableOf c obj sub r)
  | obj, sub, .group o i n r =>
    .nested ⟨c.tagPrefix ++ capitals (nameOf o i), o.inst, obj, sub, o.name, o.optional, o.multi, o.multiMandatory⟩
      (tableOf c (typeOf c o i) [] n) (tableOf c obj sub r)

/-- The table of a message: its members are in the member of the union that is named as the message. -/
def msgTable (c : GCfg) (m : GMsg) : Tab := tableOf c (lit "union " ++ c.protoName ++ lit "_ies") m.name m.ies

/-- The struct that contains the member of a table entry: the one named by `obj`, or, if `obj` is the union of all
messages, that of the message `sub`. -/
def structFor (c : GCfg) (env : List CStruct) (h : CHead) : Option (List CMemb) :=
  if h.sub = [] then membersOf env h.obj
  else if h.obj = lit "union " ++ c.protoName ++ lit "_ies" then
    membersOf env (lit "struct " ++ c.protoName ++ lit "_msg_" ++ h.sub)
  else none

/-- The member of a table entry exists, is an array of `count_max` elements with a count if and only if the entry has
a count, and has a presence flag if the entry has. -/
def HasRoom (c : GCfg) (env : List CStruct) (h : CHead) (type : Option Text) : Prop :=
  ∃ ms m, structFor c env h = some ms ∧ m ∈ ms ∧ m.name = h.memb ∧ m.multi = h.multi ∧ m.presence = h.presence ∧
    ∀ t, type = some t → m.type = t

/-- The struct that the first entry of a table is for. -/
def Tab.obj : Tab → Option Text
  | .nil => none
  | .func h _ _ => some h.obj
  | .nested h _ _ => some h.obj

/-- Whatever is decoded by means of the table has a place in the struct: every member of every entry, where the
member of an entry with nested IEs is of the type that the nested table is for. -/
def Room (c : GCfg) (env : List CStruct) : Tab → Prop
  | .nil => True
  | .func h _ r => HasRoom c env h none ∧ Room c env r
  | .nested h n r => HasRoom c env h (Tab.obj n) ∧ Room c env n ∧ Room c env r

/-- Types are used consistently: IEs of the same type have the same nested IEs. -/
def Consistent (c : GCfg) (ms : List GMsg) : Prop :=
  ∀ o i n o' i' n', (o, i, n) ∈ groups ms → (o', i', n') ∈ groups ms → typeOf c o i = typeOf c o' i' → n = n'

end Verif.Spec
