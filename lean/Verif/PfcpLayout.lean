/-
The functions of pfcp_ies_custom.c as the generated tables refer to them, and the layout of the structs on x86-64.
-/
import Verif.GenLayout
import Verif.GenPfcp

namespace Verif.Pfcp

/-- The types that osmo_pfcp_dec_SUFFIX() and osmo_pfcp_enc_SUFFIX() convert their pointers to (pfcp_ies_custom.c:125-1080: the first
declaration in each function). -/
def fnTypes : List (String × String) := [
  ("cause", "enum osmo_pfcp_cause"),
  ("offending_ie", "enum osmo_pfcp_iei"),
  ("8", "uint8_t"),
  ("16be", "uint16_t"),
  ("32be", "uint32_t"),
  ("3gpp_iface_type", "enum osmo_pfcp_3gpp_iface_type"),
  ("source_iface", "enum osmo_pfcp_source_iface"),
  ("dest_iface", "enum osmo_pfcp_dest_iface"),
  ("node_id", "struct osmo_pfcp_ie_node_id"),
  ("up_function_features", "struct osmo_pfcp_ie_up_function_features"),
  ("cp_function_features", "struct osmo_pfcp_ie_cp_function_features"),
  ("f_seid", "struct osmo_pfcp_ie_f_seid"),
  ("f_teid", "struct osmo_pfcp_ie_f_teid"),
  ("apply_action", "struct osmo_pfcp_ie_apply_action"),
  ("network_inst", "struct osmo_pfcp_ie_network_inst"),
  ("outer_header_creation", "struct osmo_pfcp_ie_outer_header_creation"),
  ("activate_predefined_rules", "struct osmo_pfcp_ie_activate_predefined_rules"),
  ("outer_header_removal", "struct osmo_pfcp_ie_outer_header_removal"),
  ("ue_ip_address", "struct osmo_pfcp_ie_ue_ip_address")]

/-- What a failed decoder leaves behind: anything. -/
abbrev Left := IeKind → List UInt8 → Nat → Nat → Cell IeVal

/-- osmo_pfcp_dec_SUFFIX() and osmo_pfcp_enc_SUFFIX() (pfcp_ies_custom.c:125-1080; `ieDec`, `ieEnc`). -/
def fn (left : Left) (s : Text) : Option (CFn IeVal) :=
  (function s).bind fun k => (fnTypes.find? fun e => lit e.1 = s).bind fun t =>
  some { type := lit t.2, zero := k.zero, left := left k, dec := ieDec k, enc := fun v b => if v.kind = k then ieEnc v b else .ub }

/-- libosmo-pfcp: osmo_pfcp_ies_decode() and osmo_pfcp_ies_encode() as pfcp_msg.c:339-352 calls them (`osmo_t16l16v_cfg`, not ordered). -/
def lib (structs : List CStruct) (abi : Abi) (left : Left) : CLib IeVal :=
  { proto := cfg, structs, abi, value, fn := fn left, cfg := t16l16v, ordered := false }

/-! ### A layout (System V ABI, x86-64) -/

/-- Size, alignment, and what is where in a type. -/
structure TypeInfo where
  type : Text
  size : Nat
  align : Nat
  ofs : List (Text × Nat) := []

def roundUp (n a : Nat) : Nat := (n + a - 1) / a * a

/-- The next declaration in a struct. -/
def TypeInfo.add (t : TypeInfo) (name : Text) (size align n : Nat) : TypeInfo :=
  { t with size := roundUp t.size align + n * size, align := max t.align align, ofs := (name, roundUp t.size align) :: t.ofs }

/-- Size and alignment of a type. -/
def infoOf (known : List TypeInfo) (type : Text) : Nat × Nat :=
  match known.find? fun t => t.type = type with
  | some t => (t.size, t.align)
  | none => (0, 1)

/-- The members of a struct, one after the other. -/
def addMemb (known : List TypeInfo) (t : TypeInfo) (m : CMemb) : TypeInfo :=
  let t := if m.presence then t.add (m.name ++ lit "_present") 1 1 1 else t
  let (size, align) := infoOf known m.type
  if m.multi = 0 then t.add m.name size align 1
  else (t.add m.name size align m.multi).add (m.name ++ lit "_count") 4 4 1

/-- Lay out structs. -/
def layOut : List CStruct → List TypeInfo → List TypeInfo
  | [], known => known
  | s :: ss, known =>
    let t := s.members.foldl (addMemb known) { type := s.type, size := 0, align := 1 }
    layOut ss ({ t with size := roundUp t.size t.align } :: known)

/-- Types of pfcp_ies_custom.h:33-184, where `struct osmo_sockaddr` has 128 bytes (alignment 8). -/
def leafTypes : List (String × Nat × Nat) := [
  ("enum osmo_pfcp_cause", 4, 4), ("enum osmo_pfcp_iei", 4, 4), ("uint8_t", 1, 1), ("uint16_t", 2, 2), ("uint32_t", 4, 4),
  ("enum osmo_pfcp_3gpp_iface_type", 4, 4), ("enum osmo_pfcp_source_iface", 4, 4), ("enum osmo_pfcp_dest_iface", 4, 4),
  ("struct osmo_pfcp_ie_node_id", 264, 8), ("struct osmo_pfcp_ie_up_function_features", 6, 1),
  ("struct osmo_pfcp_ie_cp_function_features", 1, 1), ("struct osmo_pfcp_ie_f_seid", 280, 8), ("struct osmo_pfcp_ie_f_teid", 288, 8),
  ("struct osmo_pfcp_ie_apply_action", 2, 1), ("struct osmo_pfcp_ie_network_inst", 254, 1),
  ("struct osmo_pfcp_ie_outer_header_creation", 304, 8), ("struct osmo_pfcp_ie_activate_predefined_rules", 256, 1),
  ("struct osmo_pfcp_ie_outer_header_removal", 8, 4), ("struct osmo_pfcp_ie_ue_ip_address", 288, 8)]

/-- The layout of the structs of a header, and of the union of the messages. -/
def sysV (structs : List CStruct) : List TypeInfo :=
  let known := layOut structs (leafTypes.map fun t => { type := lit t.1, size := t.2.1, align := t.2.2 })
  let msgs := msgDefs.map fun m => (infoOf known (cfg.msgType m.name)).1
  { type := cfg.unionType, size := msgs.foldl max 0, align := 8 } :: known

/-- ... as the compiler decides it. -/
def sysVAbi (structs : List CStruct) : Abi :=
  { size := fun t => (infoOf (sysV structs) t).1
    ofs := fun s n => match (sysV structs).find? fun t => t.type = s with
      | none => 0
      | some t => match t.ofs.find? fun x => x.1 = n with
        | none => 0
        | some x => x.2 }

end Verif.Pfcp
