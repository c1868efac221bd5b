/-
Model of src/libosmo-pfcp/gen__pfcp_ies_auto.c: the definition of PFCP as it is given to gtlv_gen.c, with the names of
everything; and of the constants and functions that the generated code refers to.
-/
import Verif.Gen

namespace Verif.Pfcp

/-- `ALL_FROM_NAME`: osmo_gtlv_gen_ie_auto (gtlv_gen.c:36) -/
def auto : GInfo := { addr := 0 }
/-- `O(..)`, `M(..)`, `O_MULTI(..)`, `M_MULTI(..)` (gtlv_gen.h:36-40) -/
def O (name : String) : GOcc := { name := lit name, optional := true }
def M (name : String) : GOcc := { name := lit name }
def OMulti (max : Nat) (name : String) : GOcc := { name := lit name, multi := max }
def MMulti (max mandatory : Nat) (name : String) : GOcc := { name := lit name, multi := max, multiMandatory := mandatory }

/-! ### Definitions of IEs and messages (gen__pfcp_ies_auto.c) -/

/-- `recovery_time_stamp` (gen__pfcp_ies_auto.c:43-47) -/
def ieRecoveryTimeStamp : GInfo := { addr := 1, decodedType := some (lit "uint32_t"), decEnc := some (lit "32be"), specRef := some (lit "7.4.2") }
/-- `cause` (gen__pfcp_ies_auto.c:49-52) -/
def ieCause : GInfo := { addr := 2, decodedType := some (lit "enum osmo_pfcp_cause"), specRef := some (lit "8.2.1") }
/-- `offending_ie` (gen__pfcp_ies_auto.c:54-57) -/
def ieOffendingIe : GInfo := { addr := 3, decodedType := some (lit "enum osmo_pfcp_iei"), specRef := some (lit "8.2.22") }
/-- `f_seid` (gen__pfcp_ies_auto.c:59-62) -/
def ieFSeid : GInfo := { addr := 4, tagName := some (lit "f_seid"), specRef := some (lit "8.2.37") }
/-- `pdr_id` (gen__pfcp_ies_auto.c:64-68) -/
def iePdrId : GInfo := { addr := 5, decodedType := some (lit "uint16_t"), decEnc := some (lit "16be"), specRef := some (lit "8.2.36") }
/-- `precedence` (gen__pfcp_ies_auto.c:70-74) -/
def iePrecedence : GInfo := { addr := 6, decodedType := some (lit "uint32_t"), decEnc := some (lit "32be"), specRef := some (lit "8.2.11") }
/-- `source_iface` (gen__pfcp_ies_auto.c:76-79) -/
def ieSourceIface : GInfo := { addr := 7, decodedType := some (lit "enum osmo_pfcp_source_iface"), specRef := some (lit "8.2.2") }
/-- `f_teid` (gen__pfcp_ies_auto.c:81-84) -/
def ieFTeid : GInfo := { addr := 8, tagName := some (lit "f_teid"), specRef := some (lit "8.2.3") }
/-- `traffic_endpoint_id` (gen__pfcp_ies_auto.c:86-91) -/
def ieTrafficEndpointId : GInfo := { addr := 9, decodedType := some (lit "uint8_t"), tagName := some (lit "traffic_endpoint_id"), decEnc := some (lit "8"), specRef := some (lit "8.2.92") }
/-- `iface_type` (gen__pfcp_ies_auto.c:93-97) -/
def ieIfaceType : GInfo := { addr := 10, decodedType := some (lit "enum osmo_pfcp_3gpp_iface_type"), tagName := some (lit "3gpp_iface_type"), specRef := some (lit "8.2.118") }
/-- `ies_in_pdi` (gen__pfcp_ies_auto.c:99-107) -/
def iesInPdi : GIes :=
  .ie (M "source_iface") ieSourceIface <|
  .ie (O "local_f_teid") ieFTeid <|
  .ie (O "network_inst") auto <|
  .ie (O "ue_ip_address") auto <|
  .ie (O "traffic_endpoint_id") ieTrafficEndpointId <|
  .ie (O "source_iface_type") ieIfaceType .nil
/-- `pdi` (gen__pfcp_ies_auto.c:109-112) -/
def iePdi : GInfo := { addr := 11, specRef := some (lit "7.5.2.2-2") }
/-- `far_id` (gen__pfcp_ies_auto.c:114-118) -/
def ieFarId : GInfo := { addr := 12, decodedType := some (lit "uint32_t"), decEnc := some (lit "32be"), specRef := some (lit "8.2.74") }
/-- `ies_in_create_pdr` (gen__pfcp_ies_auto.c:120-128) -/
def iesInCreatePdr : GIes :=
  .ie (M "pdr_id") iePdrId <|
  .ie (M "precedence") iePrecedence <|
  .group (M "pdi") iePdi iesInPdi <|
  .ie (O "outer_header_removal") auto <|
  .ie (O "far_id") ieFarId <|
  .ie (O "activate_predefined_rules") auto .nil
/-- `create_pdr` (gen__pfcp_ies_auto.c:130-133) -/
def ieCreatePdr : GInfo := { addr := 13, specRef := some (lit "7.5.2.2") }
/-- `ies_in_created_pdr` (gen__pfcp_ies_auto.c:135-139) -/
def iesInCreatedPdr : GIes :=
  .ie (M "pdr_id") iePdrId <|
  .ie (O "local_f_teid") ieFTeid .nil
/-- `created_pdr` (gen__pfcp_ies_auto.c:141-144) -/
def ieCreatedPdr : GInfo := { addr := 14, specRef := some (lit "7.5.3.2") }
/-- `ies_in_upd_pdr` (gen__pfcp_ies_auto.c:146-153) -/
def iesInUpdPdr : GIes :=
  .ie (M "pdr_id") iePdrId <|
  .ie (O "outer_header_removal") auto <|
  .group (O "pdi") iePdi iesInPdi <|
  .ie (O "far_id") ieFarId <|
  .ie (O "activate_predefined_rules") auto .nil
/-- `upd_pdr` (gen__pfcp_ies_auto.c:155-158) -/
def ieUpdPdr : GInfo := { addr := 15, specRef := some (lit "7.5.4.2") }
/-- `ies_in_updated_pdr` (gen__pfcp_ies_auto.c:160-164) -/
def iesInUpdatedPdr : GIes :=
  .ie (M "pdr_id") iePdrId <|
  .ie (O "local_f_teid") ieFTeid .nil
/-- `updated_pdr` (gen__pfcp_ies_auto.c:166-169) -/
def ieUpdatedPdr : GInfo := { addr := 16, specRef := some (lit "7.5.9.3") }
/-- `ies_in_remove_pdr` (gen__pfcp_ies_auto.c:171-174) -/
def iesInRemovePdr : GIes :=
  .ie (M "pdr_id") iePdrId .nil
/-- `remove_pdr` (gen__pfcp_ies_auto.c:176-179) -/
def ieRemovePdr : GInfo := { addr := 17, specRef := some (lit "7.5.4.6") }
/-- `destination_iface` (gen__pfcp_ies_auto.c:181-185) -/
def ieDestinationIface : GInfo := { addr := 18, decodedType := some (lit "enum osmo_pfcp_dest_iface"), decEnc := some (lit "dest_iface"), specRef := some (lit "8.2.24") }
/-- `ies_in_forw_params` (gen__pfcp_ies_auto.c:187-194) -/
def iesInForwParams : GIes :=
  .ie (M "destination_iface") ieDestinationIface <|
  .ie (O "network_inst") auto <|
  .ie (O "outer_header_creation") auto <|
  .ie (O "linked_te_id") ieTrafficEndpointId <|
  .ie (O "destination_iface_type") ieIfaceType .nil
/-- `forw_params` (gen__pfcp_ies_auto.c:196-199) -/
def ieForwParams : GInfo := { addr := 19, specRef := some (lit "7.5.2.3-2") }
/-- `ies_in_upd_forw_params` (gen__pfcp_ies_auto.c:201-208) -/
def iesInUpdForwParams : GIes :=
  .ie (O "destination_iface") ieDestinationIface <|
  .ie (O "network_inst") auto <|
  .ie (O "outer_header_creation") auto <|
  .ie (O "linked_te_id") ieTrafficEndpointId <|
  .ie (O "destination_iface_type") ieIfaceType .nil
/-- `upd_forw_params` (gen__pfcp_ies_auto.c:210-213) -/
def ieUpdForwParams : GInfo := { addr := 20, specRef := some (lit "7.5.4.3-2") }
/-- `ies_in_create_far` (gen__pfcp_ies_auto.c:215-220) -/
def iesInCreateFar : GIes :=
  .ie (M "far_id") ieFarId <|
  .ie (M "apply_action") auto <|
  .group (O "forw_params") ieForwParams iesInForwParams .nil
/-- `create_far` (gen__pfcp_ies_auto.c:222-225) -/
def ieCreateFar : GInfo := { addr := 21, specRef := some (lit "7.5.2.3") }
/-- `ies_in_remove_far` (gen__pfcp_ies_auto.c:227-230) -/
def iesInRemoveFar : GIes :=
  .ie (M "far_id") ieFarId .nil
/-- `remove_far` (gen__pfcp_ies_auto.c:232-235) -/
def ieRemoveFar : GInfo := { addr := 22, specRef := some (lit "7.5.4.6") }
/-- `ies_in_upd_far` (gen__pfcp_ies_auto.c:237-242) -/
def iesInUpdFar : GIes :=
  .ie (M "far_id") ieFarId <|
  .ie (O "apply_action") auto <|
  .group (O "upd_forw_params") ieUpdForwParams iesInUpdForwParams .nil
/-- `upd_far` (gen__pfcp_ies_auto.c:244-247) -/
def ieUpdFar : GInfo := { addr := 23, specRef := some (lit "7.5.4.3") }
/-- `ies_in_msg_heartbeat_req` (gen__pfcp_ies_auto.c:249-252) -/
def iesInMsgHeartbeatReq : GIes :=
  .ie (M "recovery_time_stamp") ieRecoveryTimeStamp .nil
/-- `ies_in_msg_heartbeat_resp` (gen__pfcp_ies_auto.c:254-257) -/
def iesInMsgHeartbeatResp : GIes :=
  .ie (M "recovery_time_stamp") ieRecoveryTimeStamp .nil
/-- `ies_in_msg_assoc_setup_req` (gen__pfcp_ies_auto.c:259-265) -/
def iesInMsgAssocSetupReq : GIes :=
  .ie (M "node_id") auto <|
  .ie (M "recovery_time_stamp") ieRecoveryTimeStamp <|
  .ie (O "up_function_features") auto <|
  .ie (O "cp_function_features") auto .nil
/-- `ies_in_msg_assoc_setup_resp` (gen__pfcp_ies_auto.c:267-274) -/
def iesInMsgAssocSetupResp : GIes :=
  .ie (M "node_id") auto <|
  .ie (M "cause") ieCause <|
  .ie (M "recovery_time_stamp") ieRecoveryTimeStamp <|
  .ie (O "up_function_features") auto <|
  .ie (O "cp_function_features") auto .nil
/-- `ies_in_msg_assoc_release_req` (gen__pfcp_ies_auto.c:276-279) -/
def iesInMsgAssocReleaseReq : GIes :=
  .ie (M "node_id") auto .nil
/-- `ies_in_msg_assoc_release_resp` (gen__pfcp_ies_auto.c:281-285) -/
def iesInMsgAssocReleaseResp : GIes :=
  .ie (M "node_id") auto <|
  .ie (M "cause") ieCause .nil
/-- `ies_in_msg_session_est_req` (gen__pfcp_ies_auto.c:287-293) -/
def iesInMsgSessionEstReq : GIes :=
  .ie (M "node_id") auto <|
  .ie (O "cp_f_seid") ieFSeid <|
  .group (MMulti 32 1 "create_pdr") ieCreatePdr iesInCreatePdr <|
  .group (MMulti 32 1 "create_far") ieCreateFar iesInCreateFar .nil
/-- `ies_in_msg_session_est_resp` (gen__pfcp_ies_auto.c:295-302) -/
def iesInMsgSessionEstResp : GIes :=
  .ie (M "node_id") auto <|
  .ie (M "cause") ieCause <|
  .ie (O "offending_ie") ieOffendingIe <|
  .ie (O "up_f_seid") ieFSeid <|
  .group (OMulti 32 "created_pdr") ieCreatedPdr iesInCreatedPdr .nil
/-- `ies_in_msg_session_mod_req` (gen__pfcp_ies_auto.c:304-313) -/
def iesInMsgSessionModReq : GIes :=
  .ie (O "cp_f_seid") ieFSeid <|
  .group (OMulti 32 "remove_pdr") ieRemovePdr iesInRemovePdr <|
  .group (OMulti 32 "remove_far") ieRemoveFar iesInRemoveFar <|
  .group (OMulti 32 "create_pdr") ieCreatePdr iesInCreatePdr <|
  .group (OMulti 32 "create_far") ieCreateFar iesInCreateFar <|
  .group (OMulti 32 "upd_pdr") ieUpdPdr iesInUpdPdr <|
  .group (OMulti 32 "upd_far") ieUpdFar iesInUpdFar .nil
/-- `ies_in_msg_session_mod_resp` (gen__pfcp_ies_auto.c:315-321) -/
def iesInMsgSessionModResp : GIes :=
  .ie (M "cause") ieCause <|
  .ie (O "offending_ie") ieOffendingIe <|
  .group (OMulti 32 "created_pdr") ieCreatedPdr iesInCreatedPdr <|
  .group (OMulti 32 "updated_pdr") ieUpdatedPdr iesInUpdatedPdr .nil
/-- `ies_in_msg_session_del_req` (gen__pfcp_ies_auto.c:323-326) -/
def iesInMsgSessionDelReq : GIes :=
  .nil
/-- `ies_in_msg_session_del_resp` (gen__pfcp_ies_auto.c:328-331) -/
def iesInMsgSessionDelResp : GIes :=
  .ie (M "cause") ieCause .nil

/-- `pfcp_msg_defs` (gen__pfcp_ies_auto.c:334-348) -/
def msgDefs : List GMsg := [
  { name := lit "heartbeat_req", ies := iesInMsgHeartbeatReq },
  { name := lit "heartbeat_resp", ies := iesInMsgHeartbeatResp },
  { name := lit "assoc_setup_req", ies := iesInMsgAssocSetupReq },
  { name := lit "assoc_setup_resp", ies := iesInMsgAssocSetupResp },
  { name := lit "assoc_release_req", ies := iesInMsgAssocReleaseReq },
  { name := lit "assoc_release_resp", ies := iesInMsgAssocReleaseResp },
  { name := lit "session_est_req", ies := iesInMsgSessionEstReq },
  { name := lit "session_est_resp", ies := iesInMsgSessionEstResp },
  { name := lit "session_mod_req", ies := iesInMsgSessionModReq },
  { name := lit "session_mod_resp", ies := iesInMsgSessionModResp },
  { name := lit "session_del_req", ies := iesInMsgSessionDelReq },
  { name := lit "session_del_resp", ies := iesInMsgSessionDelResp }]

/-- (gen__pfcp_ies_auto.c:352-364) -/
def cfg : GCfg where
  protoName := lit "osmo_pfcp"
  messageTypePrefix := lit "OSMO_PFCP_MSGT_"
  tagPrefix := lit "OSMO_PFCP_IEI_"
  decodedTypePrefix := lit "struct osmo_pfcp_ie_"
  specRefPrefix := some (lit "3GPP TS 29.244 ")
  messageTypeEnum := some (lit "enum osmo_pfcp_message_type")
  hHeader := some (lit "#include <osmocom/pfcp/pfcp_ies_custom.h>")
  cHeader := some (lit "#include <osmocom/pfcp/pfcp_ies_auto.h>")
  addEncToStr := true

/-- Constants (pfcp_proto.h:31-58) -/
def messageTypes : List (String × Nat) := [
  ("OSMO_PFCP_MSGT_NONE", 0),
  ("OSMO_PFCP_MSGT_HEARTBEAT_REQ", 1),
  ("OSMO_PFCP_MSGT_HEARTBEAT_RESP", 2),
  ("OSMO_PFCP_MSGT_PFD_MGMT_REQ", 3),
  ("OSMO_PFCP_MSGT_PFD_MGMT_RESP", 4),
  ("OSMO_PFCP_MSGT_ASSOC_SETUP_REQ", 5),
  ("OSMO_PFCP_MSGT_ASSOC_SETUP_RESP", 6),
  ("OSMO_PFCP_MSGT_ASSOC_UPDATE_REQ", 7),
  ("OSMO_PFCP_MSGT_ASSOC_UPDATE_RESP", 8),
  ("OSMO_PFCP_MSGT_ASSOC_RELEASE_REQ", 9),
  ("OSMO_PFCP_MSGT_ASSOC_RELEASE_RESP", 10),
  ("OSMO_PFCP_MSGT_VERSION_NOT_SUPP_RESP", 11),
  ("OSMO_PFCP_MSGT_NODE_REPORT_REQ", 12),
  ("OSMO_PFCP_MSGT_NODE_REPORT_RESP", 13),
  ("OSMO_PFCP_MSGT_SESSION_SET_DEL_REQ", 14),
  ("OSMO_PFCP_MSGT_SESSION_SET_DEL_RESP", 15),
  ("OSMO_PFCP_MSGT_SESSION_EST_REQ", 50),
  ("OSMO_PFCP_MSGT_SESSION_EST_RESP", 51),
  ("OSMO_PFCP_MSGT_SESSION_MOD_REQ", 52),
  ("OSMO_PFCP_MSGT_SESSION_MOD_RESP", 53),
  ("OSMO_PFCP_MSGT_SESSION_DEL_REQ", 54),
  ("OSMO_PFCP_MSGT_SESSION_DEL_RESP", 55),
  ("OSMO_PFCP_MSGT_SESSION_REP_REQ", 56),
  ("OSMO_PFCP_MSGT_SESSION_REP_RESP", 57)]

/-- Constants (pfcp_proto.h:64-334) -/
def ieis : List (String × Nat) := [
  ("OSMO_PFCP_IEI_CREATE_PDR", 1),
  ("OSMO_PFCP_IEI_PDI", 2),
  ("OSMO_PFCP_IEI_CREATE_FAR", 3),
  ("OSMO_PFCP_IEI_FORW_PARAMS", 4),
  ("OSMO_PFCP_IEI_DUPL_PARAMS", 5),
  ("OSMO_PFCP_IEI_CREATE_URR", 6),
  ("OSMO_PFCP_IEI_CREATE_QER", 7),
  ("OSMO_PFCP_IEI_CREATED_PDR", 8),
  ("OSMO_PFCP_IEI_UPD_PDR", 9),
  ("OSMO_PFCP_IEI_UPD_FAR", 10),
  ("OSMO_PFCP_IEI_UPD_FORW_PARAMS", 11),
  ("OSMO_PFCP_IEI_UPD_BAR_SESS_REP_RESP", 12),
  ("OSMO_PFCP_IEI_UPD_URR", 13),
  ("OSMO_PFCP_IEI_UPD_QER", 14),
  ("OSMO_PFCP_IEI_REMOVE_PDR", 15),
  ("OSMO_PFCP_IEI_REMOVE_FAR", 16),
  ("OSMO_PFCP_IEI_REMOVE_URR", 17),
  ("OSMO_PFCP_IEI_REMOVE_QER", 18),
  ("OSMO_PFCP_IEI_CAUSE", 19),
  ("OSMO_PFCP_IEI_SOURCE_IFACE", 20),
  ("OSMO_PFCP_IEI_F_TEID", 21),
  ("OSMO_PFCP_IEI_NETWORK_INST", 22),
  ("OSMO_PFCP_IEI_SDF_FILTER", 23),
  ("OSMO_PFCP_IEI_APPLICATION_ID", 24),
  ("OSMO_PFCP_IEI_GATE_STATUS", 25),
  ("OSMO_PFCP_IEI_MBR", 26),
  ("OSMO_PFCP_IEI_GBR", 27),
  ("OSMO_PFCP_IEI_QER_CORRELATION_ID", 28),
  ("OSMO_PFCP_IEI_PRECEDENCE", 29),
  ("OSMO_PFCP_IEI_TRANSPORT_LEVEL_MARKING", 30),
  ("OSMO_PFCP_IEI_VOLUME_THRESH", 31),
  ("OSMO_PFCP_IEI_TIME_THRESH", 32),
  ("OSMO_PFCP_IEI_MONITORING_TIME", 33),
  ("OSMO_PFCP_IEI_SUBSEQUENT_VOLUME_THRESH", 34),
  ("OSMO_PFCP_IEI_SUBSEQUENT_TIME_THRESH", 35),
  ("OSMO_PFCP_IEI_INACT_DETECTION_TIME", 36),
  ("OSMO_PFCP_IEI_REPORTING_TRIGGERS", 37),
  ("OSMO_PFCP_IEI_REDIRECT_INFO", 38),
  ("OSMO_PFCP_IEI_REP_TYPE", 39),
  ("OSMO_PFCP_IEI_OFFENDING_IE", 40),
  ("OSMO_PFCP_IEI_FORW_POLICY", 41),
  ("OSMO_PFCP_IEI_DESTINATION_IFACE", 42),
  ("OSMO_PFCP_IEI_UP_FUNCTION_FEATURES", 43),
  ("OSMO_PFCP_IEI_APPLY_ACTION", 44),
  ("OSMO_PFCP_IEI_DL_DATA_SERVICE_INFO", 45),
  ("OSMO_PFCP_IEI_DL_DATA_NOTIFICATION_DELAY", 46),
  ("OSMO_PFCP_IEI_DL_BUFF_DURATION", 47),
  ("OSMO_PFCP_IEI_DL_BUFF_SUGGESTED_PACKET_COUNT", 48),
  ("OSMO_PFCP_IEI_PFCPSMREQ_FLAGS", 49),
  ("OSMO_PFCP_IEI_PFCPSRRSP_FLAGS", 50),
  ("OSMO_PFCP_IEI_LOAD_CTRL_INFO", 51),
  ("OSMO_PFCP_IEI_SEQUENCE_NUMBER", 52),
  ("OSMO_PFCP_IEI_METRIC", 53),
  ("OSMO_PFCP_IEI_OVERLOAD_CTRL_INFO", 54),
  ("OSMO_PFCP_IEI_TIMER", 55),
  ("OSMO_PFCP_IEI_PDR_ID", 56),
  ("OSMO_PFCP_IEI_F_SEID", 57),
  ("OSMO_PFCP_IEI_APPLICATION_IDS_PFDS", 58),
  ("OSMO_PFCP_IEI_PFD_CONTEXT", 59),
  ("OSMO_PFCP_IEI_NODE_ID", 60),
  ("OSMO_PFCP_IEI_PFD_CONTENTS", 61),
  ("OSMO_PFCP_IEI_MEAS_METHOD", 62),
  ("OSMO_PFCP_IEI_USAGE_REP_TRIGGER", 63),
  ("OSMO_PFCP_IEI_MEAS_PERIOD", 64),
  ("OSMO_PFCP_IEI_FQ_CSID", 65),
  ("OSMO_PFCP_IEI_VOLUME_MEAS", 66),
  ("OSMO_PFCP_IEI_DURATION_MEAS", 67),
  ("OSMO_PFCP_IEI_APPLICATION_DETECTION_INFO", 68),
  ("OSMO_PFCP_IEI_TIME_OF_FIRST_PACKET", 69),
  ("OSMO_PFCP_IEI_TIME_OF_LAST_PACKET", 70),
  ("OSMO_PFCP_IEI_QUOTA_HOLDING_TIME", 71),
  ("OSMO_PFCP_IEI_DROPPED_DL_TRAFFIC_THRESH", 72),
  ("OSMO_PFCP_IEI_VOLUME_QUOTA", 73),
  ("OSMO_PFCP_IEI_TIME_QUOTA", 74),
  ("OSMO_PFCP_IEI_START_TIME", 75),
  ("OSMO_PFCP_IEI_END_TIME", 76),
  ("OSMO_PFCP_IEI_QUERY_URR", 77),
  ("OSMO_PFCP_IEI_USAGE_REP_SESS_MOD_RESP", 78),
  ("OSMO_PFCP_IEI_USAGE_REP_SESS_DEL_RESP", 79),
  ("OSMO_PFCP_IEI_USAGE_REP_SESS_REP_REQ", 80),
  ("OSMO_PFCP_IEI_URR_ID", 81),
  ("OSMO_PFCP_IEI_LINKED_URR_ID", 82),
  ("OSMO_PFCP_IEI_DL_DATA_REP", 83),
  ("OSMO_PFCP_IEI_OUTER_HEADER_CREATION", 84),
  ("OSMO_PFCP_IEI_CREATE_BAR", 85),
  ("OSMO_PFCP_IEI_UPD_BAR_SESS_MOD_REQ", 86),
  ("OSMO_PFCP_IEI_REMOVE_BAR", 87),
  ("OSMO_PFCP_IEI_BAR_ID", 88),
  ("OSMO_PFCP_IEI_CP_FUNCTION_FEATURES", 89),
  ("OSMO_PFCP_IEI_USAGE_INFO", 90),
  ("OSMO_PFCP_IEI_APPLICATION_INST_ID", 91),
  ("OSMO_PFCP_IEI_FLOW_INFO", 92),
  ("OSMO_PFCP_IEI_UE_IP_ADDRESS", 93),
  ("OSMO_PFCP_IEI_PACKET_RATE", 94),
  ("OSMO_PFCP_IEI_OUTER_HEADER_REMOVAL", 95),
  ("OSMO_PFCP_IEI_RECOVERY_TIME_STAMP", 96),
  ("OSMO_PFCP_IEI_DL_FLOW_LEVEL_MARKING", 97),
  ("OSMO_PFCP_IEI_HEADER_ENRICHMENT", 98),
  ("OSMO_PFCP_IEI_ERROR_IND_REP", 99),
  ("OSMO_PFCP_IEI_MEAS_INFO", 100),
  ("OSMO_PFCP_IEI_NODE_REP_TYPE", 101),
  ("OSMO_PFCP_IEI_USER_PLANE_PATH_FAILURE_REP", 102),
  ("OSMO_PFCP_IEI_REMOTE_GTP_U_PEER", 103),
  ("OSMO_PFCP_IEI_UR_SEQN", 104),
  ("OSMO_PFCP_IEI_UPD_DUPL_PARAMS", 105),
  ("OSMO_PFCP_IEI_ACTIVATE_PREDEFINED_RULES", 106),
  ("OSMO_PFCP_IEI_DEACTIVATE_PREDEFINED_RULES", 107),
  ("OSMO_PFCP_IEI_FAR_ID", 108),
  ("OSMO_PFCP_IEI_QER_ID", 109),
  ("OSMO_PFCP_IEI_OCI_FLAGS", 110),
  ("OSMO_PFCP_IEI_PFCP_ASSOC_RELEASE_REQ", 111),
  ("OSMO_PFCP_IEI_GRACEFUL_RELEASE_PERIOD", 112),
  ("OSMO_PFCP_IEI_PDN_TYPE", 113),
  ("OSMO_PFCP_IEI_FAILED_RULE_ID", 114),
  ("OSMO_PFCP_IEI_TIME_QUOTA_MECHANISM", 115),
  ("OSMO_PFCP_IEI_RESERVED", 116),
  ("OSMO_PFCP_IEI_USER_PLANE_INACT_TIMER", 117),
  ("OSMO_PFCP_IEI_AGGREGATED_URRS", 118),
  ("OSMO_PFCP_IEI_MULTIPLIER", 119),
  ("OSMO_PFCP_IEI_AGGREGATED_URR_ID", 120),
  ("OSMO_PFCP_IEI_SUBSEQUENT_VOLUME_QUOTA", 121),
  ("OSMO_PFCP_IEI_SUBSEQUENT_TIME_QUOTA", 122),
  ("OSMO_PFCP_IEI_RQI", 123),
  ("OSMO_PFCP_IEI_QFI", 124),
  ("OSMO_PFCP_IEI_QUERY_URR_REFERENCE", 125),
  ("OSMO_PFCP_IEI_ADDITIONAL_USAGE_REPS_INFO", 126),
  ("OSMO_PFCP_IEI_CREATE_TRAFFIC_ENDPOINT", 127),
  ("OSMO_PFCP_IEI_CREATED_TRAFFIC_ENDPOINT", 128),
  ("OSMO_PFCP_IEI_UPD_TRAFFIC_ENDPOINT", 129),
  ("OSMO_PFCP_IEI_REMOVE_TRAFFIC_ENDPOINT", 130),
  ("OSMO_PFCP_IEI_TRAFFIC_ENDPOINT_ID", 131),
  ("OSMO_PFCP_IEI_ETHERNET_PACKET_FILTER", 132),
  ("OSMO_PFCP_IEI_MAC_ADDRESS", 133),
  ("OSMO_PFCP_IEI_C_TAG", 134),
  ("OSMO_PFCP_IEI_S_TAG", 135),
  ("OSMO_PFCP_IEI_ETHERTYPE", 136),
  ("OSMO_PFCP_IEI_PROXYING", 137),
  ("OSMO_PFCP_IEI_ETHERNET_FILTER_ID", 138),
  ("OSMO_PFCP_IEI_ETHERNET_FILTER_PROPERTIES", 139),
  ("OSMO_PFCP_IEI_SUGGESTED_BUFF_PACKETS_COUNT", 140),
  ("OSMO_PFCP_IEI_USER_ID", 141),
  ("OSMO_PFCP_IEI_ETHERNET_PDU_SESS_INFO", 142),
  ("OSMO_PFCP_IEI_ETHERNET_TRAFFIC_INFO", 143),
  ("OSMO_PFCP_IEI_MAC_ADDRS_DETECTED", 144),
  ("OSMO_PFCP_IEI_MAC_ADDRS_REMOVED", 145),
  ("OSMO_PFCP_IEI_ETHERNET_INACT_TIMER", 146),
  ("OSMO_PFCP_IEI_ADDITIONAL_MONITORING_TIME", 147),
  ("OSMO_PFCP_IEI_EVENT_QUOTA", 148),
  ("OSMO_PFCP_IEI_EVENT_THRESH", 149),
  ("OSMO_PFCP_IEI_SUBSEQUENT_EVENT_QUOTA", 150),
  ("OSMO_PFCP_IEI_SUBSEQUENT_EVENT_THRESH", 151),
  ("OSMO_PFCP_IEI_TRACE_INFO", 152),
  ("OSMO_PFCP_IEI_FRAMED_ROUTE", 153),
  ("OSMO_PFCP_IEI_FRAMED_ROUTING", 154),
  ("OSMO_PFCP_IEI_FRAMED_IPV6_ROUTE", 155),
  ("OSMO_PFCP_IEI_TIME_STAMP", 156),
  ("OSMO_PFCP_IEI_AVERAGING_WINDOW", 157),
  ("OSMO_PFCP_IEI_PAGING_POLICY_INDICATOR", 158),
  ("OSMO_PFCP_IEI_APN_DNN", 159),
  ("OSMO_PFCP_IEI_3GPP_IFACE_TYPE", 160),
  ("OSMO_PFCP_IEI_PFCPSRREQ_FLAGS", 161),
  ("OSMO_PFCP_IEI_PFCPAUREQ_FLAGS", 162),
  ("OSMO_PFCP_IEI_ACTIVATION_TIME", 163),
  ("OSMO_PFCP_IEI_DEACTIVATION_TIME", 164),
  ("OSMO_PFCP_IEI_CREATE_MAR", 165),
  ("OSMO_PFCP_IEI_3GPP_ACCESS_FORW_ACTION_INFO", 166),
  ("OSMO_PFCP_IEI_NON_3GPP_ACCESS_FORW_ACTION_INFO", 167),
  ("OSMO_PFCP_IEI_REMOVE_MAR", 168),
  ("OSMO_PFCP_IEI_UPD_MAR", 169),
  ("OSMO_PFCP_IEI_MAR_ID", 170),
  ("OSMO_PFCP_IEI_STEERING_FUNCTIONALITY", 171),
  ("OSMO_PFCP_IEI_STEERING_MODE", 172),
  ("OSMO_PFCP_IEI_WEIGHT", 173),
  ("OSMO_PFCP_IEI_PRIORITY", 174),
  ("OSMO_PFCP_IEI_UPD_3GPP_ACCESS_FORW_ACTION_INFO", 175),
  ("OSMO_PFCP_IEI_UPD_NON_3GPP_ACCESS_FORW_ACTION_INFO", 176),
  ("OSMO_PFCP_IEI_UE_IP_ADDRESS_POOL_IDENTITY", 177),
  ("OSMO_PFCP_IEI_ALTERNATIVE_SMF_IP_ADDRESS", 178),
  ("OSMO_PFCP_IEI_PACKET_REPLICATION_AND_DETECTION_CARRY_ON_INFO", 179),
  ("OSMO_PFCP_IEI_SMF_SET_ID", 180),
  ("OSMO_PFCP_IEI_QUOTA_VALIDITY_TIME", 181),
  ("OSMO_PFCP_IEI_NUMBER_OF_REPS", 182),
  ("OSMO_PFCP_IEI_PFCP_SESS_RETENTION_INFO_IN_ASSOC_SETUP_REQ", 183),
  ("OSMO_PFCP_IEI_PFCPASRSP_FLAGS", 184),
  ("OSMO_PFCP_IEI_CP_ENTITY_IP_ADDRESS", 185),
  ("OSMO_PFCP_IEI_PFCPSEREQ_FLAGS", 186),
  ("OSMO_PFCP_IEI_USER_PLANE_PATH_RECOVERY_REP", 187),
  ("OSMO_PFCP_IEI_IP_MULTICAST_ADDR_INFO_IN_SESS_EST_REQ", 188),
  ("OSMO_PFCP_IEI_JOIN_IP_MULTICAST_INFO_IE_IN_USAGE_REP", 189),
  ("OSMO_PFCP_IEI_LEAVE_IP_MULTICAST_INFO_IE_IN_USAGE_REP", 190),
  ("OSMO_PFCP_IEI_IP_MULTICAST_ADDRESS", 191),
  ("OSMO_PFCP_IEI_SOURCE_IP_ADDRESS", 192),
  ("OSMO_PFCP_IEI_PACKET_RATE_STATUS", 193),
  ("OSMO_PFCP_IEI_CREATE_BRIDGE_INFO_FOR_TSC", 194),
  ("OSMO_PFCP_IEI_CREATED_BRIDGE_INFO_FOR_TSC", 195),
  ("OSMO_PFCP_IEI_DS_TT_PORT_NUMBER", 196),
  ("OSMO_PFCP_IEI_NW_TT_PORT_NUMBER", 197),
  ("OSMO_PFCP_IEI_TSN_BRIDGE_ID", 198),
  ("OSMO_PFCP_IEI_TSC_MGMT_INFO_IE_IN_SESS_MOD_REQ", 199),
  ("OSMO_PFCP_IEI_TSC_MGMT_INFO_IE_IN_SESS_MOD_RESP", 200),
  ("OSMO_PFCP_IEI_TSC_MGMT_INFO_IE_IN_SESS_REP_REQ", 201),
  ("OSMO_PFCP_IEI_PORT_MGMT_INFO_CONTAINER", 202),
  ("OSMO_PFCP_IEI_CLOCK_DRIFT_CTRL_INFO", 203),
  ("OSMO_PFCP_IEI_REQUESTED_CLOCK_DRIFT_INFO", 204),
  ("OSMO_PFCP_IEI_CLOCK_DRIFT_REP", 205),
  ("OSMO_PFCP_IEI_TSN_TIME_DOMAIN_NUMBER", 206),
  ("OSMO_PFCP_IEI_TIME_OFFSET_THRESH", 207),
  ("OSMO_PFCP_IEI_CUMULATIVE_RATERATIO_THRESH", 208),
  ("OSMO_PFCP_IEI_TIME_OFFSET_MEAS", 209),
  ("OSMO_PFCP_IEI_CUMULATIVE_RATERATIO_MEAS", 210),
  ("OSMO_PFCP_IEI_REMOVE_SRR", 211),
  ("OSMO_PFCP_IEI_CREATE_SRR", 212),
  ("OSMO_PFCP_IEI_UPD_SRR", 213),
  ("OSMO_PFCP_IEI_SESS_REP", 214),
  ("OSMO_PFCP_IEI_SRR_ID", 215),
  ("OSMO_PFCP_IEI_ACCESS_AVAIL_CTRL_INFO", 216),
  ("OSMO_PFCP_IEI_REQUESTED_ACCESS_AVAIL_INFO", 217),
  ("OSMO_PFCP_IEI_ACCESS_AVAIL_REP", 218),
  ("OSMO_PFCP_IEI_ACCESS_AVAIL_INFO", 219),
  ("OSMO_PFCP_IEI_PROVIDE_ATSSS_CTRL_INFO", 220),
  ("OSMO_PFCP_IEI_ATSSS_CTRL_PARAMS", 221),
  ("OSMO_PFCP_IEI_MPTCP_CTRL_INFO", 222),
  ("OSMO_PFCP_IEI_ATSSS_LL_CTRL_INFO", 223),
  ("OSMO_PFCP_IEI_PMF_CTRL_INFO", 224),
  ("OSMO_PFCP_IEI_MPTCP_PARAMS", 225),
  ("OSMO_PFCP_IEI_ATSSS_LL_PARAMS", 226),
  ("OSMO_PFCP_IEI_PMF_PARAMS", 227),
  ("OSMO_PFCP_IEI_MPTCP_ADDRESS_INFO", 228),
  ("OSMO_PFCP_IEI_UE_LINK_SPECIFIC_IP_ADDRESS", 229),
  ("OSMO_PFCP_IEI_PMF_ADDRESS_INFO", 230),
  ("OSMO_PFCP_IEI_ATSSS_LL_INFO", 231),
  ("OSMO_PFCP_IEI_DATA_NETWORK_ACCESS_IDENTIFIER", 232),
  ("OSMO_PFCP_IEI_UE_IP_ADDRESS_POOL_INFO", 233),
  ("OSMO_PFCP_IEI_AVERAGE_PACKET_DELAY", 234),
  ("OSMO_PFCP_IEI_MIN_PACKET_DELAY", 235),
  ("OSMO_PFCP_IEI_MAX_PACKET_DELAY", 236),
  ("OSMO_PFCP_IEI_QOS_REP_TRIGGER", 237),
  ("OSMO_PFCP_IEI_GTP_U_PATH_QOS_CTRL_INFO", 238),
  ("OSMO_PFCP_IEI_GTP_U_PATH_QOS_REP_NODE_REP_REQ", 239),
  ("OSMO_PFCP_IEI_QOS_INFO_IN_GTP_U_PATH_QOS_REP", 240),
  ("OSMO_PFCP_IEI_GTP_U_PATH_IFACE_TYPE", 241),
  ("OSMO_PFCP_IEI_QOS_MONITORING_PER_QOS_FLOW_CTRL_INFO", 242),
  ("OSMO_PFCP_IEI_REQUESTED_QOS_MONITORING", 243),
  ("OSMO_PFCP_IEI_REPORTING_FREQUENCY", 244),
  ("OSMO_PFCP_IEI_PACKET_DELAY_THRESHOLDS", 245),
  ("OSMO_PFCP_IEI_MIN_WAIT_TIME", 246),
  ("OSMO_PFCP_IEI_QOS_MONITORING_REP", 247),
  ("OSMO_PFCP_IEI_QOS_MONITORING_MEAS", 248),
  ("OSMO_PFCP_IEI_MT_EDT_CTRL_INFO", 249),
  ("OSMO_PFCP_IEI_DL_DATA_PACKETS_SIZE", 250),
  ("OSMO_PFCP_IEI_QER_CTRL_INDICATIONS", 251),
  ("OSMO_PFCP_IEI_PACKET_RATE_STATUS_REP", 252),
  ("OSMO_PFCP_IEI_NF_INST_ID", 253),
  ("OSMO_PFCP_IEI_ETHERNET_CONTEXT_INFO", 254),
  ("OSMO_PFCP_IEI_REDUNDANT_TRANSMISSION_PARAMS", 255),
  ("OSMO_PFCP_IEI_UPDATED_PDR", 256),
  ("OSMO_PFCP_IEI_S_NSSAI", 257),
  ("OSMO_PFCP_IEI_IP_VERSION", 258),
  ("OSMO_PFCP_IEI_PFCPASREQ_FLAGS", 259),
  ("OSMO_PFCP_IEI_DATA_STATUS", 260),
  ("OSMO_PFCP_IEI_PROVIDE_RDS_CONF_INFO", 261),
  ("OSMO_PFCP_IEI_RDS_CONF_INFO", 262),
  ("OSMO_PFCP_IEI_QUERY_PACKET_RATE_STATUS_IE_IN_SESS_MOD_REQ", 263),
  ("OSMO_PFCP_IEI_PACKET_RATE_STATUS_REP_IE_IN_SESS_MOD_RESP", 264),
  ("OSMO_PFCP_IEI_MPTCP_APPLICABLE_IND", 265),
  ("OSMO_PFCP_IEI_BRIDGE_MGMT_INFO_CONTAINER", 266),
  ("OSMO_PFCP_IEI_UE_IP_ADDRESS_USAGE_INFO", 267),
  ("OSMO_PFCP_IEI_NUMBER_OF_UE_IP_ADDRS", 268),
  ("OSMO_PFCP_IEI_VALIDITY_TIMER", 269),
  ("OSMO_PFCP_IEI_REDUNDANT_TRANSMISSION_FORW_PARAMS", 270),
  ("OSMO_PFCP_IEI_TRANSPORT_DELAY_REPORTING", 271)]

/-- The functions osmo_pfcp_dec_SUFFIX() and osmo_pfcp_enc_SUFFIX() (pfcp_ies_custom.c:125-1080), by the names that the
model has for them. -/
def functions : List (String × IeKind) := [
  ("cause", .cause),
  ("offending_ie", .offendingIe),
  ("8", .u8),
  ("16be", .u16),
  ("32be", .u32),
  ("3gpp_iface_type", .ifaceType),
  ("source_iface", .sourceIface),
  ("dest_iface", .destIface),
  ("node_id", .nodeId),
  ("up_function_features", .upFeatures),
  ("cp_function_features", .cpFeatures),
  ("f_seid", .fSeid),
  ("f_teid", .fTeid),
  ("apply_action", .applyAction),
  ("network_inst", .networkInst),
  ("outer_header_creation", .ohc),
  ("activate_predefined_rules", .apr),
  ("outer_header_removal", .ohr),
  ("ue_ip_address", .ueIp)]

/-- The value of a constant. -/
def value (s : Text) : Option Nat := ((messageTypes ++ ieis).find? fun e => lit e.1 = s).map (·.2)
/-- The function with a suffix. -/
def function (s : Text) : Option IeKind := (functions.find? fun e => lit e.1 = s).map (·.2)

end Verif.Pfcp
