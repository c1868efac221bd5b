/-
The model against recorded executions of the code: tests/libosmo-pfcp/pfcp_test.c encodes 14 messages, prints them,
decodes the outcome and compares; tests/libosmo-pfcp/pfcp_test.ok is what the program printed.  The messages are those
of the C source; the texts and octets are those of the .ok file.  These are tests of the model, not theorems about the
code: they are evidence that the definitions that the theorems are about compute what the code computes.
-/
import Verif.Strs

namespace Verif.Recorded

/-- What `osmo_sockaddr_to_str_buf2()` and `osmo_quote_str_buf3()` print, for the arguments that occur in the records. -/
def lib : LibText where
  sockaddr := fun
    | .inet a 0 => dec (a / 0x1000000 % 256) ++ lit "." ++ dec (a / 0x10000 % 256) ++ lit "." ++ dec (a / 0x100 % 256) ++
        lit "." ++ dec (a % 256)
    | .inet6 a _ => if a = 0x01020304000000000000000000000000 then lit "[102:304::]" else lit "?"
    | _ => lit "?"
  quote := fun s => lit "\"" ++ s ++ lit "\""
  fsmName := fun _ => lit "?"
  fsmState := fun _ => lit "?"

/-- A record: the message, and what was printed: its text and its octets. -/
structure Recorded where
  h : Hdr
  ies : Struct IeVal
  text : String
  octets : List UInt8

/-- The message as `osmo_pfcp_msg_to_str_c()` gets it. -/
def Recorded.msg (h : Hdr) (ies : Struct IeVal) : PMsg := { remote := .unspec, h := h, ies := ies }

/-- What `osmo_pfcp_msg_to_str_c()` gives (pfcp_msg.c:582-585): 256 octets first. -/
def printed (h : Hdr) (ies : Struct IeVal) : Option (List UInt8) :=
  match nameC (fun n => List.replicate n 0xaa) 256 (msgToStr lib (Recorded.msg h ies)) with
  | .ok mem => some (mem.takeWhile (· ≠ 0))
  | _ => none

/-- The steps of `test_enc_dec()`, and that they print what was recorded. -/
def Recorded.replayed (r : Recorded) : Bool :=
  decide (printed r.h r.ies = some (lit r.text)) &&
  match msgEncode { b := ⟨1024, []⟩ } r.h r.ies with
  | .ok buf =>
    decide (buf.b.data = r.octets) &&
    match buf.decodeHeader [] with
    | .ok d =>
      decide (d.msgLen = r.octets.length) && decide (d.h = r.h) &&
      match decodeTlv d with
      | .ok ies => decide (printed d.h ies = some (lit r.text))
      | _ => false
    | _ => false
  | _ => false

/-! ### What the messages of pfcp_test.c have in common (pfcp_test.c:34-93) -/

/-- `{ .u.sin = { .sin_family = AF_INET, .. } }` -/
def v4 (a b c d : Nat) : Sockaddr := .inet (((a * 256 + b) * 256 + c) * 256 + d) 0
def v4Ue : Sockaddr := v4 192 168 0 23
def v4Gtp : Sockaddr := v4 10 9 8 7
def one (v : IeVal) : List (Val IeVal) := [.leaf v]
def fTeidAccessLocal : List (Val IeVal) := one (.fTeid (.choose true false false 0))
def fTeidCreated : List (Val IeVal) := one (.fTeid (.fixed 1234 { v4Present := true, v4 := v4Gtp }))
def ohcAccess : List (Val IeVal) :=
  one (.ohc { desc := [1, 0], teidPresent := true, teid := 0xabcdef, ip := { v4Present := true, v4 := v4Gtp } })
def aaForw : List (Val IeVal) := one (.applyAction [2, 0])
def fSeid : List (Val IeVal) := one (.fSeid { seid := 0x1234567890abcdef, ip := { v4Present := true, v4 := v4Gtp } })
def nodeV4 (a b c d : Nat) : List (Val IeVal) := one (.nodeId (.v4 (v4 a b c d)))

/-- `tests[0]` (pfcp_test.c) and its record (pfcp_test.ok). -/
def recorded0 : Recorded where
  h := { type := 1, seq := 1 }
  ies :=
    [one (.u32 1234)]
  text :=
    "PFCPv1 HEARTBEAT_REQ hdr={seq=1} ies={ 'Recovery Time Stamp'=1234 }"
  octets :=
      [0x20, 0x01, 0x00, 0x0c, 0x00, 0x00, 0x01, 0x00, 0x00, 0x60, 0x00, 0x04, 0x00, 0x00, 0x04, 0xd2]

/-- `tests[1]` (pfcp_test.c) and its record (pfcp_test.ok). -/
def recorded1 : Recorded where
  h := { type := 2, seq := 2 }
  ies :=
    [one (.u32 5678)]
  text :=
    "PFCPv1 HEARTBEAT_RESP hdr={seq=2} ies={ 'Recovery Time Stamp'=5678 }"
  octets :=
      [0x20, 0x02, 0x00, 0x0c, 0x00, 0x00, 0x02, 0x00, 0x00, 0x60, 0x00, 0x04, 0x00, 0x00, 0x16, 0x2e]

/-- `tests[2]` (pfcp_test.c) and its record (pfcp_test.ok). -/
def recorded2 : Recorded where
  h := { type := 5, seq := 3 }
  ies :=
    [nodeV4 4 3 2 1, one (.u32 0x2b2b2b2b), [], []]
  text :=
    "PFCPv1 ASSOC_SETUP_REQ hdr={seq=3} ies={ 'Node ID'=v4:4.3.2.1 'Recovery Time Stamp'=724249387 }"
  octets :=
      [0x20, 0x05, 0x00, 0x15, 0x00, 0x00, 0x03, 0x00, 0x00, 0x3c, 0x00, 0x05, 0x00, 0x04, 0x03, 0x02, 0x01, 0x00, 0x60, 0x00,
       0x04, 0x2b, 0x2b, 0x2b, 0x2b]

/-- `tests[3]` (pfcp_test.c) and its record (pfcp_test.ok). -/
def recorded3 : Recorded where
  h := { type := 6, seq := 4 }
  ies :=
    [one (.nodeId (.fqdn (lit "example.com"))), one (.cause 1), one (.u32 0x2b2b2b2b), one (.upFeatures [1, 2, 0, 0, 0, 0]), []]
  text :=
    "PFCPv1 ASSOC_SETUP_RESP hdr={seq=4} ies={ 'Node ID'=fqdn:\"example.com\" 'Cause'=Request accepted " ++
      "(success) 'Recovery Time Stamp'=724249387 'UP Function Features'=BUCP+PDIU }"
  octets :=
      [0x20, 0x06, 0x00, 0x2c, 0x00, 0x00, 0x04, 0x00, 0x00, 0x3c, 0x00, 0x0d, 0x02, 0x07, 0x65, 0x78, 0x61, 0x6d, 0x70, 0x6c,
       0x65, 0x03, 0x63, 0x6f, 0x6d, 0x00, 0x13, 0x00, 0x01, 0x01, 0x00, 0x60, 0x00, 0x04, 0x2b, 0x2b, 0x2b, 0x2b, 0x00, 0x2b,
       0x00, 0x06, 0x01, 0x02, 0x00, 0x00, 0x00, 0x00]

/-- `tests[4]` (pfcp_test.c) and its record (pfcp_test.ok). -/
def recorded4 : Recorded where
  h := { type := 9, seq := 5 }
  ies :=
    [one (.nodeId (.v6 (.inet6 0x01020304000000000000000000000000 0)))]
  text :=
    "PFCPv1 ASSOC_RELEASE_REQ hdr={seq=5} ies={ 'Node ID'=v6:[102:304::] }"
  octets :=
      [0x20, 0x09, 0x00, 0x19, 0x00, 0x00, 0x05, 0x00, 0x00, 0x3c, 0x00, 0x11, 0x01, 0x01, 0x02, 0x03, 0x04, 0x00, 0x00, 0x00,
       0x00, 0x00, 0x00, 0x00, 0x00, 0x00, 0x00, 0x00, 0x00]

/-- `tests[5]` (pfcp_test.c) and its record (pfcp_test.ok). -/
def recorded5 : Recorded where
  h := { type := 10, seq := 6 }
  ies :=
    [nodeV4 4 3 2 1, one (.cause 64)]
  text :=
    "PFCPv1 ASSOC_RELEASE_RESP hdr={seq=6} ies={ 'Node ID'=v4:4.3.2.1 'Cause'=Request rejected (reaso" ++
      "n not specified) }"
  octets :=
      [0x20, 0x0a, 0x00, 0x12, 0x00, 0x00, 0x06, 0x00, 0x00, 0x3c, 0x00, 0x05, 0x00, 0x04, 0x03, 0x02, 0x01, 0x00, 0x13, 0x00,
       0x01, 0x40]

/-- `tests[6]` (pfcp_test.c) and its record (pfcp_test.ok). -/
def recorded6 : Recorded where
  h := { type := 50, seq := 7, seidPresent := true, seid := 0 }
  ies :=
    [nodeV4 127 0 0 1, fSeid,
       [.node [one (.u16 1), one (.u32 255),
          [.node [one (.sourceIface 1), [], one (.networkInst (lit "foo")),
            one (.ueIp { isDest := true, ip := { v4Present := true, v4 := v4Ue } }), [], []]], [], one (.u32 1), []],
        .node [one (.u16 2), one (.u32 255),
          [.node [one (.sourceIface 0), fTeidAccessLocal, one (.networkInst (lit "bar")), [], [], []]],
          one (.ohr { desc := 0 }), one (.u32 2), []]],
       [.node [one (.u32 1), aaForw, [.node [one (.destIface 0), [], ohcAccess, [], []]]],
        .node [one (.u32 2), aaForw, [.node [one (.destIface 1), [], [], [], []]]]]]
  text :=
    "PFCPv1 SESSION_EST_REQ hdr={seq=7 SEID=0x0} ies={ 'Node ID'=v4:127.0.0.1 'F-SEID'=0x1234567890ab" ++
      "cdef,v4:10.9.8.7 'Create PDR'={ { 'PDR ID'=1 'Precedence'=255 'PDI'={ 'Source Interface'=Core 'N" ++
      "etwork Instance'=\"foo\" 'UE IP Address'=,dst,v4:192.168.0.23 } 'FAR ID'=1 }, { 'PDR ID'=2 'Preced" ++
      "ence'=255 'PDI'={ 'Source Interface'=Access 'F-TEID'=CHOOSE-v4 'Network Instance'=\"bar\" } 'Outer" ++
      " Header Removal'=GTP_U_UDP_IPV4 'FAR ID'=2 } } 'Create FAR'={ { 'FAR ID'=1 'Apply Action'=FORW '" ++
      "Forwarding Parameters'={ 'Destination Interface'=Access 'Outer Header Creation'=GTP_U_UDP_IPV4,T" ++
      "EID:0xabcdef,v4:10.9.8.7 } }, { 'FAR ID'=2 'Apply Action'=FORW 'Forwarding Parameters'={ 'Destin" ++
      "ation Interface'=Core } } } }"
  octets :=
      [0x21, 0x32, 0x00, 0xd3, 0x00, 0x00, 0x00, 0x00, 0x00, 0x00, 0x00, 0x00, 0x00, 0x00, 0x07, 0x00, 0x00, 0x3c, 0x00, 0x05,
       0x00, 0x7f, 0x00, 0x00, 0x01, 0x00, 0x39, 0x00, 0x0d, 0x02, 0x12, 0x34, 0x56, 0x78, 0x90, 0xab, 0xcd, 0xef, 0x0a, 0x09,
       0x08, 0x07, 0x00, 0x01, 0x00, 0x30, 0x00, 0x38, 0x00, 0x02, 0x00, 0x01, 0x00, 0x1d, 0x00, 0x04, 0x00, 0x00, 0x00, 0xff,
       0x00, 0x02, 0x00, 0x16, 0x00, 0x14, 0x00, 0x01, 0x01, 0x00, 0x16, 0x00, 0x04, 0x03, 0x66, 0x6f, 0x6f, 0x00, 0x5d, 0x00,
       0x05, 0x06, 0xc0, 0xa8, 0x00, 0x17, 0x00, 0x6c, 0x00, 0x04, 0x00, 0x00, 0x00, 0x01, 0x00, 0x01, 0x00, 0x31, 0x00, 0x38,
       0x00, 0x02, 0x00, 0x02, 0x00, 0x1d, 0x00, 0x04, 0x00, 0x00, 0x00, 0xff, 0x00, 0x02, 0x00, 0x12, 0x00, 0x14, 0x00, 0x01,
       0x00, 0x00, 0x15, 0x00, 0x01, 0x05, 0x00, 0x16, 0x00, 0x04, 0x03, 0x62, 0x61, 0x72, 0x00, 0x5f, 0x00, 0x01, 0x00, 0x00,
       0x6c, 0x00, 0x04, 0x00, 0x00, 0x00, 0x02, 0x00, 0x03, 0x00, 0x25, 0x00, 0x6c, 0x00, 0x04, 0x00, 0x00, 0x00, 0x01, 0x00,
       0x2c, 0x00, 0x02, 0x02, 0x00, 0x00, 0x04, 0x00, 0x13, 0x00, 0x2a, 0x00, 0x01, 0x00, 0x00, 0x54, 0x00, 0x0a, 0x01, 0x00,
       0x00, 0xab, 0xcd, 0xef, 0x0a, 0x09, 0x08, 0x07, 0x00, 0x03, 0x00, 0x17, 0x00, 0x6c, 0x00, 0x04, 0x00, 0x00, 0x00, 0x02,
       0x00, 0x2c, 0x00, 0x02, 0x02, 0x00, 0x00, 0x04, 0x00, 0x05, 0x00, 0x2a, 0x00, 0x01, 0x01]

/-- `tests[7]` (pfcp_test.c) and its record (pfcp_test.ok). -/
def recorded7 : Recorded where
  h := { type := 51, seq := 8, seidPresent := true, seid := 0x0123456789abcdef }
  ies :=
    [nodeV4 127 0 0 2, one (.cause 1), [], fSeid,
       [.node [one (.u16 1), []], .node [one (.u16 2), fTeidCreated]]]
  text :=
    "PFCPv1 SESSION_EST_RESP hdr={seq=8 SEID=0x123456789abcdef} ies={ 'Node ID'=v4:127.0.0.2 'Cause'=" ++
      "Request accepted (success) 'F-SEID'=0x1234567890abcdef,v4:10.9.8.7 'Created PDR'={ { 'PDR ID'=1 " ++
      "}, { 'PDR ID'=2 'F-TEID'=TEID-0x4d2,v4:10.9.8.7 } } }"
  octets :=
      [0x21, 0x33, 0x00, 0x4c, 0x01, 0x23, 0x45, 0x67, 0x89, 0xab, 0xcd, 0xef, 0x00, 0x00, 0x08, 0x00, 0x00, 0x3c, 0x00, 0x05,
       0x00, 0x7f, 0x00, 0x00, 0x02, 0x00, 0x13, 0x00, 0x01, 0x01, 0x00, 0x39, 0x00, 0x0d, 0x02, 0x12, 0x34, 0x56, 0x78, 0x90,
       0xab, 0xcd, 0xef, 0x0a, 0x09, 0x08, 0x07, 0x00, 0x08, 0x00, 0x06, 0x00, 0x38, 0x00, 0x02, 0x00, 0x01, 0x00, 0x08, 0x00,
       0x13, 0x00, 0x38, 0x00, 0x02, 0x00, 0x02, 0x00, 0x15, 0x00, 0x09, 0x01, 0x00, 0x00, 0x04, 0xd2, 0x0a, 0x09, 0x08, 0x07]

/-- `tests[8]` (pfcp_test.c) and its record (pfcp_test.ok). -/
def recorded8 : Recorded where
  h := { type := 52, seq := 9, seidPresent := true, seid := 0 }
  ies :=
    [[], [.node [one (.u16 1)]], [.node [one (.u32 1)]],
       [.node [one (.u16 3), one (.u32 255),
          [.node [one (.sourceIface 0), fTeidAccessLocal, one (.networkInst (lit "baz")), [], [], []]],
          one (.ohr { desc := 0 }), one (.u32 3), []]],
       [.node [one (.u32 3), aaForw, [.node [one (.destIface 0), [], ohcAccess, [], []]]]],
       [.node [one (.u16 1), one (.ohr { desc := 0 }),
          [.node [one (.sourceIface 0), fTeidAccessLocal, one (.networkInst (lit "moo")), [], [], []]], one (.u32 1), []]],
       -- apply_action and destination_iface are set, but apply_action_present, destination_iface_present are not
       [.node [one (.u32 1), [], [.node [[], one (.networkInst (lit "internet")), [], [], []]]]]]
  text :=
    "PFCPv1 SESSION_MOD_REQ hdr={seq=9 SEID=0x0} ies={ 'Remove PDR'={ { 'PDR ID'=1 } } 'Remove FAR'={" ++
      " { 'FAR ID'=1 } } 'Create PDR'={ { 'PDR ID'=3 'Precedence'=255 'PDI'={ 'Source Interface'=Access" ++
      " 'F-TEID'=CHOOSE-v4 'Network Instance'=\"baz\" } 'Outer Header Removal'=GTP_U_UDP_IPV4 'FAR ID'=3 " ++
      "} } 'Create FAR'={ { 'FAR ID'=3 'Apply Action'=FORW 'Forwarding Parameters'={ 'Destination Inter" ++
      "face'=Access 'Outer Header Creation'=GTP_U_UDP_IPV4,TEID:0xabcdef,v4:10.9.8.7 } } } 'Update PDR'" ++
      "={ { 'PDR ID'=1 'Outer Header Removal'=GTP_U_UDP_IPV4 'PDI'={ 'Source Interface'=Access 'F-TEID'" ++
      "=CHOOSE-v4 'Network Instance'=\"moo\" } 'FAR ID'=1 } } 'Update FAR'={ { 'FAR ID'=1 'Update Forward" ++
      "ing Parameters'={ 'Network Instance'=\"internet\" } } } }"
  octets :=
      [0x21, 0x34, 0x00, 0xca, 0x00, 0x00, 0x00, 0x00, 0x00, 0x00, 0x00, 0x00, 0x00, 0x00, 0x09, 0x00, 0x00, 0x0f, 0x00, 0x06,
       0x00, 0x38, 0x00, 0x02, 0x00, 0x01, 0x00, 0x10, 0x00, 0x08, 0x00, 0x6c, 0x00, 0x04, 0x00, 0x00, 0x00, 0x01, 0x00, 0x01,
       0x00, 0x31, 0x00, 0x38, 0x00, 0x02, 0x00, 0x03, 0x00, 0x1d, 0x00, 0x04, 0x00, 0x00, 0x00, 0xff, 0x00, 0x02, 0x00, 0x12,
       0x00, 0x14, 0x00, 0x01, 0x00, 0x00, 0x15, 0x00, 0x01, 0x05, 0x00, 0x16, 0x00, 0x04, 0x03, 0x62, 0x61, 0x7a, 0x00, 0x5f,
       0x00, 0x01, 0x00, 0x00, 0x6c, 0x00, 0x04, 0x00, 0x00, 0x00, 0x03, 0x00, 0x03, 0x00, 0x25, 0x00, 0x6c, 0x00, 0x04, 0x00,
       0x00, 0x00, 0x03, 0x00, 0x2c, 0x00, 0x02, 0x02, 0x00, 0x00, 0x04, 0x00, 0x13, 0x00, 0x2a, 0x00, 0x01, 0x00, 0x00, 0x54,
       0x00, 0x0a, 0x01, 0x00, 0x00, 0xab, 0xcd, 0xef, 0x0a, 0x09, 0x08, 0x07, 0x00, 0x09, 0x00, 0x29, 0x00, 0x38, 0x00, 0x02,
       0x00, 0x01, 0x00, 0x5f, 0x00, 0x01, 0x00, 0x00, 0x02, 0x00, 0x12, 0x00, 0x14, 0x00, 0x01, 0x00, 0x00, 0x15, 0x00, 0x01,
       0x05, 0x00, 0x16, 0x00, 0x04, 0x03, 0x6d, 0x6f, 0x6f, 0x00, 0x6c, 0x00, 0x04, 0x00, 0x00, 0x00, 0x01, 0x00, 0x0a, 0x00,
       0x19, 0x00, 0x6c, 0x00, 0x04, 0x00, 0x00, 0x00, 0x01, 0x00, 0x0b, 0x00, 0x0d, 0x00, 0x16, 0x00, 0x09, 0x08, 0x69, 0x6e,
       0x74, 0x65, 0x72, 0x6e, 0x65, 0x74]

/-- `tests[9]` (pfcp_test.c) and its record (pfcp_test.ok). -/
def recorded9 : Recorded where
  h := { type := 53, seq := 10, seidPresent := true, seid := 0x0123456789abcdef }
  ies :=
    [one (.cause 1), [], [.node [one (.u16 3), fTeidCreated]], [.node [one (.u16 1), fTeidCreated]]]
  text :=
    "PFCPv1 SESSION_MOD_RESP hdr={seq=10 SEID=0x123456789abcdef} ies={ 'Cause'=Request accepted (succ" ++
      "ess) 'Created PDR'={ { 'PDR ID'=3 'F-TEID'=TEID-0x4d2,v4:10.9.8.7 } } 'Updated PDR'={ { 'PDR ID'" ++
      "=1 'F-TEID'=TEID-0x4d2,v4:10.9.8.7 } } }"
  octets :=
      [0x21, 0x35, 0x00, 0x3f, 0x01, 0x23, 0x45, 0x67, 0x89, 0xab, 0xcd, 0xef, 0x00, 0x00, 0x0a, 0x00, 0x00, 0x13, 0x00, 0x01,
       0x01, 0x00, 0x08, 0x00, 0x13, 0x00, 0x38, 0x00, 0x02, 0x00, 0x03, 0x00, 0x15, 0x00, 0x09, 0x01, 0x00, 0x00, 0x04, 0xd2,
       0x0a, 0x09, 0x08, 0x07, 0x01, 0x00, 0x00, 0x13, 0x00, 0x38, 0x00, 0x02, 0x00, 0x01, 0x00, 0x15, 0x00, 0x09, 0x01, 0x00,
       0x00, 0x04, 0xd2, 0x0a, 0x09, 0x08, 0x07]

/-- `tests[10]` (pfcp_test.c) and its record (pfcp_test.ok). -/
def recorded10 : Recorded where
  h := { type := 53, seq := 11, seidPresent := true, seid := 0x0123456789abcdef }
  ies :=
    [one (.cause 66), one (.offendingIe 44), [], []]
  text :=
    "PFCPv1 SESSION_MOD_RESP hdr={seq=11 SEID=0x123456789abcdef} ies={ 'Cause'=Mandatory IE missing '" ++
      "Offending IE'=Apply Action }"
  octets :=
      [0x21, 0x35, 0x00, 0x17, 0x01, 0x23, 0x45, 0x67, 0x89, 0xab, 0xcd, 0xef, 0x00, 0x00, 0x0b, 0x00, 0x00, 0x13, 0x00, 0x01,
       0x42, 0x00, 0x28, 0x00, 0x02, 0x00, 0x2c]

/-- `tests[11]` (pfcp_test.c) and its record (pfcp_test.ok). -/
def recorded11 : Recorded where
  h := { type := 54, seq := 12, seidPresent := true, seid := 0x0123456789abcdef }
  ies :=
    []
  text :=
    "PFCPv1 SESSION_DEL_REQ hdr={seq=12 SEID=0x123456789abcdef} ies={ }"
  octets :=
      [0x21, 0x36, 0x00, 0x0c, 0x01, 0x23, 0x45, 0x67, 0x89, 0xab, 0xcd, 0xef, 0x00, 0x00, 0x0c, 0x00]

/-- `tests[12]` (pfcp_test.c) and its record (pfcp_test.ok). -/
def recorded12 : Recorded where
  h := { type := 55, seq := 13, seidPresent := true, seid := 0x0123456789abcdef }
  ies :=
    [one (.cause 72)]
  text :=
    "PFCPv1 SESSION_DEL_RESP hdr={seq=13 SEID=0x123456789abcdef} ies={ 'Cause'=No established PFCP As" ++
      "sociation }"
  octets :=
      [0x21, 0x37, 0x00, 0x11, 0x01, 0x23, 0x45, 0x67, 0x89, 0xab, 0xcd, 0xef, 0x00, 0x00, 0x0d, 0x00, 0x00, 0x13, 0x00, 0x01,
       0x48]

/-- `tests[13]` (pfcp_test.c) and its record (pfcp_test.ok). -/
def recorded13 : Recorded where
  h := { type := 55, seq := 13, seidPresent := true, seid := 0x0123456789abcdef }
  ies :=
    [one (.cause 1)]
  text :=
    "PFCPv1 SESSION_DEL_RESP hdr={seq=13 SEID=0x123456789abcdef} ies={ 'Cause'=Request accepted (succ" ++
      "ess) }"
  octets :=
      [0x21, 0x37, 0x00, 0x11, 0x01, 0x23, 0x45, 0x67, 0x89, 0xab, 0xcd, 0xef, 0x00, 0x00, 0x0d, 0x00, 0x00, 0x13, 0x00, 0x01,
       0x01]

/-- The records of pfcp_test.ok. -/
def pfcpTest : List Recorded :=
  [recorded0, recorded1, recorded2, recorded3, recorded4, recorded5, recorded6, recorded7, recorded8, recorded9, recorded10,
    recorded11, recorded12, recorded13]

/-! The model prints, encodes and decodes as the code did: one by one, to keep the checking small. -/

theorem replayed0 : recorded0.replayed = true := by decide +kernel
theorem replayed1 : recorded1.replayed = true := by decide +kernel
theorem replayed2 : recorded2.replayed = true := by decide +kernel
theorem replayed3 : recorded3.replayed = true := by decide +kernel
theorem replayed4 : recorded4.replayed = true := by decide +kernel
theorem replayed5 : recorded5.replayed = true := by decide +kernel
theorem replayed6 : recorded6.replayed = true := by decide +kernel
theorem replayed7 : recorded7.replayed = true := by decide +kernel
theorem replayed8 : recorded8.replayed = true := by decide +kernel
theorem replayed9 : recorded9.replayed = true := by decide +kernel
theorem replayed10 : recorded10.replayed = true := by decide +kernel
theorem replayed11 : recorded11.replayed = true := by decide +kernel
theorem replayed12 : recorded12.replayed = true := by decide +kernel
theorem replayed13 : recorded13.replayed = true := by decide +kernel

/-- The model prints, encodes and decodes as the code did. -/
example : (pfcpTest.all fun r => r.replayed) = true := by
  simp only [pfcpTest, List.all_cons, List.all_nil, Bool.and_self,
    replayed0, replayed1, replayed2, replayed3, replayed4, replayed5, replayed6, replayed7, replayed8, replayed9, replayed10, replayed11, replayed12, replayed13]

end Verif.Recorded
