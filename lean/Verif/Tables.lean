/-
Model of src/libosmo-pfcp/gen__pfcp_ies_auto.c (which IEs PFCP messages consist of) and of what
src/libosmo-gtlv/gtlv_gen.c makes of it (coding tables).
-/
import Verif.Ies

namespace Verif

mutual
/-- `struct osmo_gtlv_gen_ie` (gtlv_gen.h): an IE with its own codec (`dec_enc`), or with nested IEs. -/
inductive Ty where
  | ie (k : IeKind)
  | group (f : Fields)
/-- An array of `struct osmo_gtlv_gen_ie_o` (gtlv_gen.h): tag, how often, and what. -/
inductive Fields where
  | nil
  | cons (tag : Nat) (kind : Kind) (ty : Ty) (rest : Fields)
end

/-! ### What gtlv_gen.c generates -/

mutual
/-- One `struct osmo_gtlv_coding` (gtlv_gen.c:258-293): `dec_func` and `enc_func`, or `nested_ies`.
The generator does not set `nested_ies_ordered`, so nested IEs are decoded as the message is:
unordered (pfcp_msg.c:341). -/
def Ty.coding (tag : Nat) (kind : Kind) : Ty → Coding IeVal
  | .ie k => ieCoding tag kind k
  | .group f => nestedCoding { tag := tag } kind t16l16v false f.codings
/-- An array of `struct osmo_gtlv_coding` (gtlv_gen.c:305-324, 349-356). -/
def Fields.codings : Fields → List (Coding IeVal)
  | .nil => []
  | .cons tag kind ty f => ty.coding tag kind :: f.codings
end

/-! ### IEs (gen__pfcp_ies_auto.c), with tags from pfcp_proto.h -/

/-- `M(..)` (gtlv_gen.h) -/
abbrev fieldM (tag : Nat) (ty : Ty) (f : Fields) : Fields := .cons tag .mand ty f
/-- `O(..)` -/
abbrev fieldO (tag : Nat) (ty : Ty) (f : Fields) : Fields := .cons tag .opt ty f
/-- `M_MULTI(max, mandatory, ..)`; `O_MULTI(max, ..)` is the same with 0. -/
abbrev fieldMulti (max mandatory tag : Nat) (ty : Ty) (f : Fields) : Fields := .cons tag (.multi max mandatory) ty f

/-- `ies_in_pdi` (gen__pfcp_ies_auto.c:99-107) -/
def iesInPdi : Fields :=
  fieldM 20 (.ie .sourceIface) <|
  fieldO 21 (.ie .fTeid) <|
  fieldO 22 (.ie .networkInst) <|
  fieldO 93 (.ie .ueIp) <|
  fieldO 131 (.ie .u8) <|
  fieldO 160 (.ie .ifaceType) .nil

/-- `ies_in_create_pdr` (gen__pfcp_ies_auto.c:120-128) -/
def iesInCreatePdr : Fields :=
  fieldM 56 (.ie .u16) <|
  fieldM 29 (.ie .u32) <|
  fieldM 2 (.group iesInPdi) <|
  fieldO 95 (.ie .ohr) <|
  fieldO 108 (.ie .u32) <|
  fieldO 106 (.ie .apr) .nil

/-- `ies_in_created_pdr` (gen__pfcp_ies_auto.c:135-139) -/
def iesInCreatedPdr : Fields :=
  fieldM 56 (.ie .u16) <|
  fieldO 21 (.ie .fTeid) .nil

/-- `ies_in_upd_pdr` (gen__pfcp_ies_auto.c:146-153) -/
def iesInUpdPdr : Fields :=
  fieldM 56 (.ie .u16) <|
  fieldO 95 (.ie .ohr) <|
  fieldO 2 (.group iesInPdi) <|
  fieldO 108 (.ie .u32) <|
  fieldO 106 (.ie .apr) .nil

/-- `ies_in_updated_pdr` (gen__pfcp_ies_auto.c:160-164) -/
def iesInUpdatedPdr : Fields :=
  fieldM 56 (.ie .u16) <|
  fieldO 21 (.ie .fTeid) .nil

/-- `ies_in_remove_pdr` (gen__pfcp_ies_auto.c:171-174) -/
def iesInRemovePdr : Fields :=
  fieldM 56 (.ie .u16) .nil

/-- `ies_in_forw_params` (gen__pfcp_ies_auto.c:187-194) -/
def iesInForwParams : Fields :=
  fieldM 42 (.ie .destIface) <|
  fieldO 22 (.ie .networkInst) <|
  fieldO 84 (.ie .ohc) <|
  fieldO 131 (.ie .u8) <|
  fieldO 160 (.ie .ifaceType) .nil

/-- `ies_in_upd_forw_params` (gen__pfcp_ies_auto.c:201-208) -/
def iesInUpdForwParams : Fields :=
  fieldO 42 (.ie .destIface) <|
  fieldO 22 (.ie .networkInst) <|
  fieldO 84 (.ie .ohc) <|
  fieldO 131 (.ie .u8) <|
  fieldO 160 (.ie .ifaceType) .nil

/-- `ies_in_create_far` (gen__pfcp_ies_auto.c:215-220) -/
def iesInCreateFar : Fields :=
  fieldM 108 (.ie .u32) <|
  fieldM 44 (.ie .applyAction) <|
  fieldO 4 (.group iesInForwParams) .nil

/-- `ies_in_remove_far` (gen__pfcp_ies_auto.c:227-230) -/
def iesInRemoveFar : Fields :=
  fieldM 108 (.ie .u32) .nil

/-- `ies_in_upd_far` (gen__pfcp_ies_auto.c:237-242) -/
def iesInUpdFar : Fields :=
  fieldM 108 (.ie .u32) <|
  fieldO 44 (.ie .applyAction) <|
  fieldO 11 (.group iesInUpdForwParams) .nil

/-! ### Messages -/

/-- `ies_in_msg_heartbeat_req`, `_resp` (gen__pfcp_ies_auto.c:249-257) -/
def iesInHeartbeat : Fields :=
  fieldM 96 (.ie .u32) .nil

/-- `ies_in_msg_assoc_setup_req` (gen__pfcp_ies_auto.c:259-265) -/
def iesInAssocSetupReq : Fields :=
  fieldM 60 (.ie .nodeId) <|
  fieldM 96 (.ie .u32) <|
  fieldO 43 (.ie .upFeatures) <|
  fieldO 89 (.ie .cpFeatures) .nil

/-- `ies_in_msg_assoc_setup_resp` (gen__pfcp_ies_auto.c:267-274) -/
def iesInAssocSetupResp : Fields :=
  fieldM 60 (.ie .nodeId) <|
  fieldM 19 (.ie .cause) <|
  fieldM 96 (.ie .u32) <|
  fieldO 43 (.ie .upFeatures) <|
  fieldO 89 (.ie .cpFeatures) .nil

/-- `ies_in_msg_assoc_release_req` (gen__pfcp_ies_auto.c:276-279) -/
def iesInAssocReleaseReq : Fields :=
  fieldM 60 (.ie .nodeId) .nil

/-- `ies_in_msg_assoc_release_resp` (gen__pfcp_ies_auto.c:281-285) -/
def iesInAssocReleaseResp : Fields :=
  fieldM 60 (.ie .nodeId) <|
  fieldM 19 (.ie .cause) .nil

/-- `ies_in_msg_session_est_req` (gen__pfcp_ies_auto.c:287-293) -/
def iesInSessionEstReq : Fields :=
  fieldM 60 (.ie .nodeId) <|
  fieldO 57 (.ie .fSeid) <|
  fieldMulti 32 1 1 (.group iesInCreatePdr) <|
  fieldMulti 32 1 3 (.group iesInCreateFar) .nil

/-- `ies_in_msg_session_est_resp` (gen__pfcp_ies_auto.c:295-302) -/
def iesInSessionEstResp : Fields :=
  fieldM 60 (.ie .nodeId) <|
  fieldM 19 (.ie .cause) <|
  fieldO 40 (.ie .offendingIe) <|
  fieldO 57 (.ie .fSeid) <|
  fieldMulti 32 0 8 (.group iesInCreatedPdr) .nil

/-- `ies_in_msg_session_mod_req` (gen__pfcp_ies_auto.c:304-313) -/
def iesInSessionModReq : Fields :=
  fieldO 57 (.ie .fSeid) <|
  fieldMulti 32 0 15 (.group iesInRemovePdr) <|
  fieldMulti 32 0 16 (.group iesInRemoveFar) <|
  fieldMulti 32 0 1 (.group iesInCreatePdr) <|
  fieldMulti 32 0 3 (.group iesInCreateFar) <|
  fieldMulti 32 0 9 (.group iesInUpdPdr) <|
  fieldMulti 32 0 10 (.group iesInUpdFar) .nil

/-- `ies_in_msg_session_mod_resp` (gen__pfcp_ies_auto.c:315-321) -/
def iesInSessionModResp : Fields :=
  fieldM 19 (.ie .cause) <|
  fieldO 40 (.ie .offendingIe) <|
  fieldMulti 32 0 8 (.group iesInCreatedPdr) <|
  fieldMulti 32 0 256 (.group iesInUpdatedPdr) .nil

/-- `ies_in_msg_session_del_req` (gen__pfcp_ies_auto.c:323-326) -/
def iesInSessionDelReq : Fields := .nil

/-- `ies_in_msg_session_del_resp` (gen__pfcp_ies_auto.c:328-331) -/
def iesInSessionDelResp : Fields :=
  fieldM 19 (.ie .cause) .nil

/-- `pfcp_msg_defs` (gen__pfcp_ies_auto.c:334-348), indexed by the message types of pfcp_proto.h:31-58. -/
def msgFields : Nat → Option Fields
  | 1 => some iesInHeartbeat
  | 2 => some iesInHeartbeat
  | 5 => some iesInAssocSetupReq
  | 6 => some iesInAssocSetupResp
  | 9 => some iesInAssocReleaseReq
  | 10 => some iesInAssocReleaseResp
  | 50 => some iesInSessionEstReq
  | 51 => some iesInSessionEstResp
  | 52 => some iesInSessionModReq
  | 53 => some iesInSessionModResp
  | 54 => some iesInSessionDelReq
  | 55 => some iesInSessionDelResp
  | _ => none

/-- `osmo_pfcp_get_msg_coding()` (generated by gtlv_gen.c:371-377): NULL for types that are not in the
generated `msg_defs[]` array, or behind its end. -/
def msgCoding (type : Nat) : Option (List (Coding IeVal)) := (msgFields type).map Fields.codings

end Verif
