/-
Model of src/libosmo-pfcp/pfcp_strs.c: names of numbers.
The values of the enums are those of include/osmocom/pfcp/pfcp_proto.h and pfcp_ies_custom.h.
-/
namespace Verif

/-- `struct value_string[]` (libosmocore): the entries before the terminating `{}`. -/
abbrev ValueStrs := List (Nat × String)

/-- `osmo_pfcp_message_type_strs` (pfcp_strs.c:26-51) -/
def messageTypeStrs : ValueStrs := [
  (1, "HEARTBEAT_REQ"),
  (2, "HEARTBEAT_RESP"),
  (3, "PFD_MGMT_REQ"),
  (4, "PFD_MGMT_RESP"),
  (5, "ASSOC_SETUP_REQ"),
  (6, "ASSOC_SETUP_RESP"),
  (7, "ASSOC_UPDATE_REQ"),
  (8, "ASSOC_UPDATE_RESP"),
  (9, "ASSOC_RELEASE_REQ"),
  (10, "ASSOC_RELEASE_RESP"),
  (11, "VERSION_NOT_SUPP_RESP"),
  (12, "NODE_REPORT_REQ"),
  (13, "NODE_REPORT_RESP"),
  (14, "SESSION_SET_DEL_REQ"),
  (15, "SESSION_SET_DEL_RESP"),
  (50, "SESSION_EST_REQ"),
  (51, "SESSION_EST_RESP"),
  (52, "SESSION_MOD_REQ"),
  (53, "SESSION_MOD_RESP"),
  (54, "SESSION_DEL_REQ"),
  (55, "SESSION_DEL_RESP"),
  (56, "SESSION_REP_REQ"),
  (57, "SESSION_REP_RESP")]

/-- `osmo_pfcp_iei_strs` (pfcp_strs.c:53-326) -/
def ieiStrs : ValueStrs := [
  (1, "Create PDR"),
  (2, "PDI"),
  (3, "Create FAR"),
  (4, "Forwarding Parameters"),
  (5, "Duplicating Parameters"),
  (6, "Create URR"),
  (7, "Create QER"),
  (8, "Created PDR"),
  (9, "Update PDR"),
  (10, "Update FAR"),
  (11, "Update Forwarding Parameters"),
  (12, "Update BAR (PFCP Session Report Response)"),
  (13, "Update URR"),
  (14, "Update QER"),
  (15, "Remove PDR"),
  (16, "Remove FAR"),
  (17, "Remove URR"),
  (18, "Remove QER"),
  (19, "Cause"),
  (20, "Source Interface"),
  (21, "F-TEID"),
  (22, "Network Instance"),
  (23, "SDF Filter"),
  (24, "Application ID"),
  (25, "Gate Status"),
  (26, "MBR"),
  (27, "GBR"),
  (28, "QER Correlation ID"),
  (29, "Precedence"),
  (30, "Transport Level Marking"),
  (31, "Volume Threshold"),
  (32, "Time Threshold"),
  (33, "Monitoring Time"),
  (34, "Subsequent Volume Threshold"),
  (35, "Subsequent Time Threshold"),
  (36, "Inactivity Detection Time"),
  (37, "Reporting Triggers"),
  (38, "Redirect Information"),
  (39, "Report Type"),
  (40, "Offending IE"),
  (41, "Forwarding Policy"),
  (42, "Destination Interface"),
  (43, "UP Function Features"),
  (44, "Apply Action"),
  (45, "Downlink Data Service Information"),
  (46, "Downlink Data Notification Delay"),
  (47, "DL Buffering Duration"),
  (48, "DL Buffering Suggested Packet Count"),
  (49, "PFCPSMReq-Flags"),
  (50, "PFCPSRRsp-Flags"),
  (51, "Load Control Information"),
  (52, "Sequence Number"),
  (53, "Metric"),
  (54, "Overload Control Information"),
  (55, "Timer"),
  (56, "PDR ID"),
  (57, "F-SEID"),
  (58, "Application ID's PFDs"),
  (59, "PFD context"),
  (60, "Node ID"),
  (61, "PFD contents"),
  (62, "Measurement Method"),
  (63, "Usage Report Trigger"),
  (64, "Measurement Period"),
  (65, "FQ-CSID"),
  (66, "Volume Measurement"),
  (67, "Duration Measurement"),
  (68, "Application Detection Information"),
  (69, "Time of First Packet"),
  (70, "Time of Last Packet"),
  (71, "Quota Holding Time"),
  (72, "Dropped DL Traffic Threshold"),
  (73, "Volume Quota"),
  (74, "Time Quota"),
  (75, "Start Time"),
  (76, "End Time"),
  (77, "Query URR"),
  (78, "Usage Report (Session Modification Response)"),
  (79, "Usage Report (Session Deletion Response)"),
  (80, "Usage Report (Session Report Request)"),
  (81, "URR ID"),
  (82, "Linked URR ID"),
  (83, "Downlink Data Report"),
  (84, "Outer Header Creation"),
  (85, "Create BAR"),
  (86, "Update BAR (Session Modification Request)"),
  (87, "Remove BAR"),
  (88, "BAR ID"),
  (89, "CP Function Features"),
  (90, "Usage Information"),
  (91, "Application Instance ID"),
  (92, "Flow Information"),
  (93, "UE IP Address"),
  (94, "Packet Rate"),
  (95, "Outer Header Removal"),
  (96, "Recovery Time Stamp"),
  (97, "DL Flow Level Marking"),
  (98, "Header Enrichment"),
  (99, "Error Indication Report"),
  (100, "Measurement Information"),
  (101, "Node Report Type"),
  (102, "User Plane Path Failure Report"),
  (103, "Remote GTP-U Peer"),
  (104, "UR-SEQN"),
  (105, "Update Duplicating Parameters"),
  (106, "Activate Predefined Rules"),
  (107, "Deactivate Predefined Rules"),
  (108, "FAR ID"),
  (109, "QER ID"),
  (110, "OCI Flags"),
  (111, "PFCP Association Release Request"),
  (112, "Graceful Release Period"),
  (113, "PDN Type"),
  (114, "Failed Rule ID"),
  (115, "Time Quota Mechanism"),
  (116, "Reserved"),
  (117, "User Plane Inactivity Timer"),
  (118, "Aggregated URRs"),
  (119, "Multiplier"),
  (120, "Aggregated URR ID"),
  (121, "Subsequent Volume Quota"),
  (122, "Subsequent Time Quota"),
  (123, "RQI"),
  (124, "QFI"),
  (125, "Query URR Reference"),
  (126, "Additional Usage Reports Information"),
  (127, "Create Traffic Endpoint"),
  (128, "Created Traffic Endpoint"),
  (129, "Update Traffic Endpoint"),
  (130, "Remove Traffic Endpoint"),
  (131, "Traffic Endpoint ID"),
  (132, "Ethernet Packet Filter"),
  (133, "MAC address"),
  (134, "C-TAG"),
  (135, "S-TAG"),
  (136, "Ethertype"),
  (137, "Proxying"),
  (138, "Ethernet Filter ID"),
  (139, "Ethernet Filter Properties"),
  (140, "Suggested Buffering Packets Count"),
  (141, "User ID"),
  (142, "Ethernet PDU Session Information"),
  (143, "Ethernet Traffic Information"),
  (144, "MAC Addresses Detected"),
  (145, "MAC Addresses Removed"),
  (146, "Ethernet Inactivity Timer"),
  (147, "Additional Monitoring Time"),
  (148, "Event Quota"),
  (149, "Event Threshold"),
  (150, "Subsequent Event Quota"),
  (151, "Subsequent Event Threshold"),
  (152, "Trace Information"),
  (153, "Framed-Route"),
  (154, "Framed-Routing"),
  (155, "Framed-IPv6-Route"),
  (156, "Time Stamp"),
  (157, "Averaging Window"),
  (158, "Paging Policy Indicator"),
  (159, "APN/DNN"),
  (160, "3GPP Interface Type"),
  (161, "PFCPSRReq-Flags"),
  (162, "PFCPAUReq-Flags"),
  (163, "Activation Time"),
  (164, "Deactivation Time"),
  (165, "Create MAR"),
  (166, "3GPP Access Forwarding Action Information"),
  (167, "Non-3GPP Access Forwarding Action Information"),
  (168, "Remove MAR"),
  (169, "Update MAR"),
  (170, "MAR ID"),
  (171, "Steering Functionality"),
  (172, "Steering Mode"),
  (173, "Weight"),
  (174, "Priority"),
  (175, "Update 3GPP Access Forwarding Action Information"),
  (176, "Update Non 3GPP Access Forwarding Action Information"),
  (177, "UE IP address Pool Identity"),
  (178, "Alternative SMF IP Address"),
  (179, "Packet Replication and Detection Carry-On Information"),
  (180, "SMF Set ID"),
  (181, "Quota Validity Time"),
  (182, "Number of Reports"),
  (183, "PFCP Session Retention Information (within PFCP Association Setup Request)"),
  (184, "PFCPASRsp-Flags"),
  (185, "CP PFCP Entity IP Address"),
  (186, "PFCPSEReq-Flags"),
  (187, "User Plane Path Recovery Report"),
  (188, "IP Multicast Addressing Info within PFCP Session Establishment Request"),
  (189, "Join IP Multicast Information IE within Usage Report"),
  (190, "Leave IP Multicast Information IE within Usage Report"),
  (191, "IP Multicast Address"),
  (192, "Source IP Address"),
  (193, "Packet Rate Status"),
  (194, "Create Bridge Info for TSC"),
  (195, "Created Bridge Info for TSC"),
  (196, "DS-TT Port Number"),
  (197, "NW-TT Port Number"),
  (198, "TSN Bridge ID"),
  (199, "TSC Management Information IE within PFCP Session Modification Request"),
  (200, "TSC Management Information IE within PFCP Session Modification Response"),
  (201, "TSC Management Information IE within PFCP Session Report Request"),
  (202, "Port Management Information Container"),
  (203, "Clock Drift Control Information"),
  (204, "Requested Clock Drift Information"),
  (205, "Clock Drift Report"),
  (206, "TSN Time Domain Number"),
  (207, "Time Offset Threshold"),
  (208, "Cumulative rateRatio Threshold"),
  (209, "Time Offset Measurement"),
  (210, "Cumulative rateRatio Measurement"),
  (211, "Remove SRR"),
  (212, "Create SRR"),
  (213, "Update SRR"),
  (214, "Session Report"),
  (215, "SRR ID"),
  (216, "Access Availability Control Information"),
  (217, "Requested Access Availability Information"),
  (218, "Access Availability Report"),
  (219, "Access Availability Information"),
  (220, "Provide ATSSS Control Information"),
  (221, "ATSSS Control Parameters"),
  (222, "MPTCP Control Information"),
  (223, "ATSSS-LL Control Information"),
  (224, "PMF Control Information"),
  (225, "MPTCP Parameters"),
  (226, "ATSSS-LL Parameters"),
  (227, "PMF Parameters"),
  (228, "MPTCP Address Information"),
  (229, "UE Link-Specific IP Address"),
  (230, "PMF Address Information"),
  (231, "ATSSS-LL Information"),
  (232, "Data Network Access Identifier"),
  (233, "UE IP address Pool Information"),
  (234, "Average Packet Delay"),
  (235, "Minimum Packet Delay"),
  (236, "Maximum Packet Delay"),
  (237, "QoS Report Trigger"),
  (238, "GTP-U Path QoS Control Information"),
  (239, "GTP-U Path QoS Report (PFCP Node Report Request)"),
  (240, "QoS Information in GTP-U Path QoS Report"),
  (241, "GTP-U Path Interface Type"),
  (242, "QoS Monitoring per QoS flow Control Information"),
  (243, "Requested QoS Monitoring"),
  (244, "Reporting Frequency"),
  (245, "Packet Delay Thresholds"),
  (246, "Minimum Wait Time"),
  (247, "QoS Monitoring Report"),
  (248, "QoS Monitoring Measurement"),
  (249, "MT-EDT Control Information"),
  (250, "DL Data Packets Size"),
  (251, "QER Control Indications"),
  (252, "Packet Rate Status Report"),
  (253, "NF Instance ID"),
  (254, "Ethernet Context Information"),
  (255, "Redundant Transmission Parameters"),
  (256, "Updated PDR"),
  (257, "S-NSSAI"),
  (258, "IP version"),
  (259, "PFCPASReq-Flags"),
  (260, "Data Status"),
  (261, "Provide RDS configuration information"),
  (262, "RDS configuration information"),
  (263, "Query Packet Rate Status IE within PFCP Session Modification Request"),
  (264, "Packet Rate Status Report IE within PFCP Session Modification Response"),
  (265, "MPTCP Applicable Indication"),
  (266, "Bridge Management Information Container"),
  (267, "UE IP Address Usage Information"),
  (268, "Number of UE IP Addresses"),
  (269, "Validity Timer"),
  (270, "Redundant Transmission Forwarding Parameters"),
  (271, "Transport Delay Reporting")]

/-- `osmo_pfcp_cause_strs` (pfcp_strs.c:328-349) -/
def causeStrs : ValueStrs := [
  (0, "0"),
  (1, "Request accepted (success)"),
  (2, "More Usage Report to send"),
  (64, "Request rejected (reason not specified)"),
  (65, "Session context not found"),
  (66, "Mandatory IE missing"),
  (67, "Conditional IE missing"),
  (68, "Invalid length"),
  (69, "Mandatory IE incorrect"),
  (70, "Invalid Forwarding Policy"),
  (71, "Invalid F-TEID allocation option"),
  (72, "No established PFCP Association"),
  (73, "Rule creation/modification Failure"),
  (74, "PFCP entity in congestion"),
  (75, "No resources available"),
  (76, "Service not supported"),
  (77, "System failure"),
  (78, "Redirection Requested"),
  (79, "All dynamic addresses are occupied")]

/-- `osmo_pfcp_up_feature_strs` (pfcp_strs.c:351-393) -/
def upFeatureStrs : ValueStrs := [
  (0, "BUCP"),
  (1, "DDND"),
  (2, "DLBD"),
  (3, "TRST"),
  (4, "FTUP"),
  (5, "PFDM"),
  (6, "HEEU"),
  (7, "TREU"),
  (8, "EMPU"),
  (9, "PDIU"),
  (10, "UDBC"),
  (11, "QUOAC"),
  (12, "TRACE"),
  (13, "FRRT"),
  (14, "PFDE"),
  (15, "EPFAR"),
  (16, "DPDRA"),
  (17, "ADPDP"),
  (18, "UEIP"),
  (19, "SSET"),
  (20, "MNOP"),
  (21, "MTE"),
  (22, "BUNDL"),
  (23, "GCOM"),
  (24, "MPAS"),
  (25, "RTTL"),
  (26, "VTIME"),
  (27, "NORP"),
  (28, "IP6PL"),
  (29, "TSCU"),
  (30, "MPTCP"),
  (31, "ATSSSLL"),
  (32, "QFQM"),
  (33, "GPQM"),
  (34, "MTEDT"),
  (35, "CIOT"),
  (36, "ETHAR"),
  (37, "DDDS"),
  (38, "RDS"),
  (39, "RTTWP")]

/-- `osmo_pfcp_cp_feature_strs` (pfcp_strs.c:396-406) -/
def cpFeatureStrs : ValueStrs := [
  (0, "LOAD"),
  (1, "OVRL"),
  (2, "EPFAR"),
  (3, "SSET"),
  (4, "BUNDL"),
  (5, "MPAS"),
  (6, "ARDR"),
  (7, "UIAUR")]

/-- `osmo_pfcp_apply_action_strs` (pfcp_strs.c:408-421) -/
def applyActionStrs : ValueStrs := [
  (0, "DROP"),
  (1, "FORW"),
  (2, "BUFF"),
  (3, "NOCP"),
  (4, "DUPL"),
  (5, "IPMA"),
  (6, "IPMD"),
  (7, "DFRT"),
  (8, "EDRT"),
  (9, "BDPN"),
  (10, "DDPN")]

/-- `osmo_pfcp_outer_header_creation_strs` (pfcp_strs.c:423-435) -/
def ohcStrs : ValueStrs := [
  (0, "GTP_U_UDP_IPV4"),
  (1, "GTP_U_UDP_IPV6"),
  (2, "UDP_IPV4"),
  (3, "UDP_IPV6"),
  (4, "IPV4"),
  (5, "IPV6"),
  (6, "C_TAG"),
  (7, "S_TAG"),
  (8, "N19_INDICATION"),
  (9, "N6_INDICATION")]

/-- `osmo_pfcp_outer_header_removal_desc_strs` (pfcp_strs.c:437-448) -/
def ohrStrs : ValueStrs := [
  (0, "GTP_U_UDP_IPV4"),
  (1, "GTP_U_UDP_IPV6"),
  (2, "UDP_IPV4"),
  (3, "UDP_IPV6"),
  (4, "IPV4"),
  (5, "IPV6"),
  (6, "GTP_U_UDP_IP"),
  (7, "VLAN_S_TAG"),
  (8, "S_TAG_AND_C_TAG")]

/-- `osmo_pfcp_source_iface_strs` (pfcp_strs.c:450-457) -/
def sourceIfaceStrs : ValueStrs := [
  (0, "Access"),
  (1, "Core"),
  (2, "SGi-LAN/N6-LAN"),
  (3, "CP-function"),
  (4, "5G-VN-Internal")]

/-- `osmo_pfcp_dest_iface_strs` (pfcp_strs.c:459-467) -/
def destIfaceStrs : ValueStrs := [
  (0, "Access"),
  (1, "Core"),
  (2, "SGi-LAN/N6-LAN"),
  (3, "CP-function"),
  (4, "LI-function"),
  (5, "5G-VN-Internal")]

/-- `osmo_pfcp_3gpp_iface_type_strs` (pfcp_strs.c:469-492) -/
def ifaceTypeStrs : ValueStrs := [
  (0, "S1_U"),
  (1, "S5_S8_U"),
  (2, "S4_U"),
  (3, "S11_U"),
  (4, "S12_U"),
  (5, "GN_GP_U"),
  (6, "S2A_U"),
  (7, "S2B_U"),
  (8, "ENODEB_GTP_U_INTERFACE_FOR_DL_DATA_FORWARDING"),
  (9, "ENODEB_GTP_U_INTERFACE_FOR_UL_DATA_FORWARDING"),
  (10, "SGW_UPF_GTP_U_INTERFACE_FOR_DL_DATA_FORWARDING"),
  (11, "N3_3GPP_ACCESS"),
  (12, "N3_TRUSTED_NON_3GPP_ACCESS"),
  (13, "N3_UNTRUSTED_NON_3GPP_ACCESS"),
  (14, "N3_FOR_DATA_FORWARDING"),
  (15, "N9"),
  (16, "SGI"),
  (17, "N6"),
  (18, "N19"),
  (19, "S8_U"),
  (20, "GP_U")]

end Verif
