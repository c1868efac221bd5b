/-
Model of the functions that print: gtlv.c:50-67, gtlv_dec_enc.c:540-623, the `*_to_str*` functions of
pfcp_ies_custom.c and pfcp_msg.c:566-621.
-/
import Verif.Msg
import Verif.ValueStrs

namespace Verif

/-- Characters without a terminating NUL. -/
abbrev Text := List UInt8

/-- The octets of a string literal (all are ASCII). -/
def lit (s : String) : Text := s.toByteArray.data.toList

/-- `%u`, `%x` -/
def dec (n : Nat) : Text := (Nat.toDigits 10 n).map fun c => UInt8.ofNat c.toNat
def hex (n : Nat) : Text := (Nat.toDigits 16 n).map fun c => UInt8.ofNat c.toNat

/-- `get_value_string()` (libosmocore, trusted); a NULL table is like an empty one. -/
def valueStr (vs : ValueStrs) (v : Nat) : Text :=
  match vs.find? fun e => e.1 = v with
  | some e => lit e.2
  | none => lit "unknown 0x" ++ hex v

/-- What libosmocore makes of addresses (`osmo_sockaddr_to_str_buf2()`), strings (`osmo_quote_str_buf3()`) and
FSM instances (`osmo_fsm_inst_name()`, `osmo_fsm_state_name()`): any texts. -/
structure LibText where
  sockaddr : Sockaddr → Text
  quote : Text → Text
  fsmName : Nat → Text
  fsmState : Nat → Text

/-! ### snprintf() and struct osmo_strbuf (libosmocore, trusted) -/

/-- `char *buf, size_t buflen`: the `buflen` octets at `buf`; `none` is NULL (with `buflen` 0). -/
abbrev CBuf := Option (List UInt8)

/-- A function that prints to `buf`: what is there then, and the return code: a number of characters or an error.
Simplification: numbers of characters do not exceed INT_MAX. -/
abbrev StrFn := CBuf → Res (CBuf × Except Errno Nat)

/-- `snprintf(buf, buflen, ..)` where the format and its arguments give the text `t` (C standard); also
`osmo_sockaddr_to_str_buf2()` and `osmo_quote_str_buf3()` (libosmocore, trusted) print like this. -/
def snprintf (t : Text) : StrFn
  | none => .ok (none, .ok t.length)
  | some w =>
    if w.length = 0 then .ok (some w, .ok t.length)
    else .ok (some (t.take (w.length - 1) ++ 0 :: w.drop (min t.length (w.length - 1) + 1)), .ok t.length)

/-- `struct osmo_strbuf` (libosmocore); `pos` is NULL until something is appended to a buffer that is not NULL,
then an offset from `buf`. -/
structure StrBuf where
  buf : CBuf
  pos : Option Nat := none
  needed : Nat := 0

/-- The number of characters that a return code adds to `chars_needed`. -/
def rcChars : Except Errno Nat → Nat
  | .ok l => l
  | .error _ => 0

/-- `OSMO_STRBUF_APPEND(sb, func, ..)` (libosmocore, trusted): the function prints to the rest of the buffer;
`pos` goes to the end of the buffer if it fails or does not fit. -/
def StrBuf.append (f : StrFn) (sb : StrBuf) : Res StrBuf :=
  match sb.buf with
  | none => (f none).bind fun (_, rc) => .ok { sb with needed := sb.needed + rcChars rc }
  | some w =>
    let p := sb.pos.getD 0
    (f (some (w.drop p))).bind fun (r, rc) =>
      match r with
      | none => .ub
      | some v =>
        .ok {
          buf := some (w.take p ++ v)
          pos :=
            match rc with
            | .ok l => if l > w.length - p then some w.length else some (p + l)
            | .error _ => some w.length
          needed := sb.needed + rcChars rc }

/-- `OSMO_STRBUF_PRINTF(sb, ..)` (libosmocore, trusted). -/
def StrBuf.printf (t : Text) : StrBuf → Res StrBuf := StrBuf.append (snprintf t)

/-- `if (cond) ..` -/
def StrBuf.when (cond : Bool) (f : StrBuf → Res StrBuf) (sb : StrBuf) : Res StrBuf := if cond then f sb else .ok sb

/-- `struct osmo_strbuf sb = { .buf = buf, .len = buflen }; ..; return sb.chars_needed;` -/
def strFn (f : StrBuf → Res StrBuf) : StrFn := fun buf =>
  (f { buf := buf }).bind fun sb => .ok (sb.buf, .ok sb.needed)

/-! ### gtlv.c, gtlv_dec_enc.c -/

/-- `osmo_gtlv_tag_inst_to_str_buf()` (gtlv.c:50-61); `none` is NULL. -/
def tagInstToStr (names : Option ValueStrs) (ti : TagInst) : StrFn := strFn fun sb =>
  (match names with
    | none => sb.printf (dec ti.tag)
    | some vs => sb.printf (valueStr vs ti.tag)).bind fun sb =>
  match ti.inst with
  | some i => sb.printf (lit "[" ++ dec i ++ lit "]")
  | none => .ok sb

/-- How an entry of a coding table prints (gtlv_dec_enc.c:587-600): `nested_ies`, or `enc_to_str_func` (`none` is NULL). -/
inductive StrHow (A : Type) where
  | nested (f : Val A → StrFn)
  | func (f : Option (Val A → StrFn))

/-- The part of `struct osmo_gtlv_coding` that printing uses. -/
structure StrCoding (A : Type) where
  tag : Nat
  kind : Kind
  how : StrHow A

/-- Print one value (gtlv_dec_enc.c:587-600). -/
def strValue {A : Type} (c : StrCoding A) (v : Val A) (sb : StrBuf) : Res StrBuf :=
  match c.how with
  | .nested f =>
    (sb.printf (lit "{")).bind fun sb => (sb.append (f v)).bind fun sb => sb.printf (lit " }")
  | .func (some f) => sb.append (f v)
  | .func none => sb.printf (lit "(enc_to_str_func==NULL)")

/-- The loop over the values of one member (gtlv_dec_enc.c:575-601); `true`: `return -ENOTSUP`. -/
def strValues {A : Type} (c : StrCoding A) : List (Val A) → Nat → StrBuf → Res (StrBuf × Bool)
  | [], _, sb => .ok (sb, false)
  | v :: vs, i, sb =>
    if c.kind.exceeds i then .ok (sb, true)
    else
      (sb.when (decide (i > 0)) (StrBuf.printf (lit ", "))).bind fun sb =>
      (strValue c v sb).bind fun sb => strValues c vs (i + 1) sb

/-- Whether the member has a count. -/
def Kind.isMulti : Kind → Bool
  | .multi _ _ => true
  | _ => false

/-- The loop over the table (gtlv_dec_enc.c:552-606). -/
def strTable {A : Type} (names : ValueStrs) : List (StrCoding A) → Struct A → StrBuf → Res (CBuf × Except Errno Nat)
  | [], _, sb => .ok (sb.buf, .ok sb.needed)
  | _ :: _, [], _ => .ub
  | c :: cs, s :: ss, sb =>
    match membVals c.kind s with
    | none => .ub
    | some [] => strTable names cs ss sb
    | some (v :: vs) =>
      (sb.printf (lit " '" ++ valueStr names c.tag ++ lit "'=")).bind fun sb =>
      (sb.when c.kind.isMulti (StrBuf.printf (lit "{ "))).bind fun sb =>
      (strValues c (v :: vs) 0 sb).bind fun (sb, stop) =>
      if stop then .ok (sb.buf, .error .ENOTSUP)
      else (sb.when c.kind.isMulti (StrBuf.printf (lit " }"))).bind fun sb => strTable names cs ss sb

/-- `osmo_gtlvs_encode_to_str_buf()` (gtlv_dec_enc.c:540-607); `none` is a NULL table. -/
def gtlvsToStr {A : Type} (names : ValueStrs) (slots : Struct A) : Option (List (StrCoding A)) → StrFn
  | none, buf => .ok (buf, .error .ENOTSUP)
  | some codings, buf => strTable names codings slots { buf := buf }

/-! ### pfcp_ies_custom.c -/

/-- `osmo_pfcp_ie_node_id_to_str_buf()` (pfcp_ies_custom.c:357-380). -/
def nodeIdToStr (lib : LibText) (n : NodeId) : StrFn := strFn fun sb =>
  match n with
  | .v4 ip => (sb.printf (lit "v4:")).bind (StrBuf.printf (lib.sockaddr ip))
  | .v6 ip => (sb.printf (lit "v6:")).bind (StrBuf.printf (lib.sockaddr ip))
  | .fqdn s => (sb.printf (lit "fqdn:")).bind (StrBuf.printf (lib.quote s))
  | .other type => sb.printf (lit "unknown-node-id-type-" ++ dec type)

/-- The loop of `osmo_pfcp_bits_to_str_buf()` (pfcp_ies_custom.c:415-420). -/
def bitsLoop (bits : List UInt8) : ValueStrs → Bool → StrBuf → Res (StrBuf × Bool)
  | [], first, sb => .ok (sb, first)
  | (bit, name) :: strs, first, sb =>
    (bitsGet bits bit).bind fun isSet =>
    if isSet then
      (sb.printf ((if first then [] else lit "+") ++ lit name)).bind fun sb => bitsLoop bits strs false sb
    else bitsLoop bits strs first sb

/-- `osmo_pfcp_bits_to_str_buf()` (pfcp_ies_custom.c:411-424). -/
def bitsToStr (bits : List UInt8) (strs : ValueStrs) : StrFn := strFn fun sb =>
  (bitsLoop bits strs true sb).bind fun (sb, first) => sb.when first (StrBuf.printf (lit "-"))

/-- `osmo_pfcp_ip_addrs_to_str_buf()` (pfcp_ies_custom.c:532-554); `none` is NULL. -/
def ipAddrsToStr (lib : LibText) : Option IpAddrs → StrFn
  | none => strFn (StrBuf.printf (lit "NULL-addr"))
  | some a => strFn fun sb =>
    if !(a.v4Present || a.v6Present) then sb.printf (lit "empty:-addr")
    else
      (sb.when a.v4Present fun sb => (sb.printf (lit "v4:")).bind (StrBuf.printf (lib.sockaddr a.v4))).bind fun sb =>
      (sb.when (a.v4Present && a.v6Present) (StrBuf.printf (lit ","))).bind fun sb =>
      sb.when a.v6Present fun sb => (sb.printf (lit "v6:")).bind (StrBuf.printf (lib.sockaddr a.v6))

/-- `osmo_pfcp_enc_to_str_f_seid()` (pfcp_ies_custom.c:561-568). -/
def fSeidToStr (lib : LibText) (f : FSeid) : StrFn := strFn fun sb =>
  (sb.printf (lit "0x" ++ hex f.seid ++ lit ",")).bind (StrBuf.append (ipAddrsToStr lib (some f.ip)))

/-- `osmo_pfcp_ie_f_teid_to_str_buf()` (pfcp_ies_custom.c:661-677). -/
def fTeidToStr (lib : LibText) (f : FTeid) : StrFn := strFn fun sb =>
  match f with
  | .choose ipv4 ipv6 idPresent id =>
    (sb.printf (lit "CHOOSE")).bind fun sb =>
    (sb.when ipv4 (StrBuf.printf (lit "-v4"))).bind fun sb =>
    (sb.when ipv6 (StrBuf.printf (lit "-v6"))).bind fun sb =>
    sb.when idPresent (StrBuf.printf (lit "-id" ++ dec id))
  | .fixed teid ip =>
    (sb.printf (lit "TEID-0x" ++ hex teid ++ lit ",")).bind (StrBuf.append (ipAddrsToStr lib (some ip)))

/-- `osmo_pfcp_ie_outer_header_creation_to_str_buf()` (pfcp_ies_custom.c:880-898). -/
def ohcToStr (lib : LibText) (o : Ohc) : StrFn := strFn fun sb =>
  (sb.append (bitsToStr o.desc ohcStrs)).bind fun sb =>
  (sb.when o.teidPresent (StrBuf.printf (lit ",TEID:0x" ++ hex o.teid))).bind fun sb =>
  (sb.printf (lit ",")).bind fun sb =>
  (sb.append (ipAddrsToStr lib (some o.ip))).bind fun sb =>
  (sb.when o.portPresent (StrBuf.printf (lit ",port:" ++ dec o.port))).bind fun sb =>
  (sb.when o.cTagPresent (StrBuf.printf (lit ",c-tag:" ++ dec o.cTag))).bind fun sb =>
  sb.when o.sTagPresent (StrBuf.printf (lit ",s-tag:" ++ dec o.sTag))

/-- `osmo_pfcp_enc_to_str_outer_header_removal()` (pfcp_ies_custom.c:959-967). -/
def ohrToStr (o : Ohr) : StrFn := strFn fun sb =>
  (sb.printf (valueStr ohrStrs o.desc)).bind fun sb =>
  sb.when o.extPresent (StrBuf.printf (lit ",ext-hdr-del:0x" ++ hex o.ext))

/-- `sb.pos ? "," : ""` as an argument of OSMO_STRBUF_PRINTF() (pfcp_ies_custom.c:1063, 1065): the macro sets `pos` to `buf`, if
it is NULL, before it evaluates its arguments, so the comma is there also at the start of the text, unless the buffer is NULL
(recorded in tests/libosmo-pfcp/pfcp_test.ok: `'UE IP Address'=,dst,v4:192.168.0.23`). -/
def StrBuf.comma (sb : StrBuf) : Text := if sb.buf.isSome then lit "," else []

/-- `osmo_pfcp_enc_to_str_ue_ip_address()` (pfcp_ies_custom.c:1056-1076).  Note that it prints "chv4" for `chv6`. -/
def ueIpToStr (lib : LibText) (u : UeIp) : StrFn := strFn fun sb =>
  (sb.when u.chv4 (StrBuf.printf (lit "chv4"))).bind fun sb =>
  (sb.when u.chv6 fun sb => sb.printf (sb.comma ++ lit "chv4")).bind fun sb =>
  (sb.when u.isDest fun sb => sb.printf (sb.comma ++ lit "dst")).bind fun sb =>
  (sb.when sb.pos.isSome (StrBuf.printf (lit ","))).bind fun sb =>
  (sb.append (ipAddrsToStr lib (some u.ip))).bind fun sb =>
  (sb.when u.delegPresent (StrBuf.printf (lit ",ipv6-prefix-deleg:" ++ hex u.deleg))).bind fun sb =>
  sb.when u.plenPresent (StrBuf.printf (lit ",ipv6-prefix-len:" ++ dec u.plen))

/-- The `osmo_pfcp_enc_to_str_*()` function of each codec (pfcp_ies_custom.c:140-144, 161-165, 182-186, 203-207, 224-228,
245-249, 266-270, 287-291, 387-390, 448-452, 470-474, 684-688, 707-711, 734-739, 905-908, 926-931 and those above). -/
def ieToStr (lib : LibText) : IeVal → StrFn
  | .cause v => snprintf (valueStr causeStrs v)
  | .offendingIe v => snprintf (valueStr ieiStrs v)
  | .u8 v => snprintf (dec v)
  | .u16 v => snprintf (dec v)
  | .u32 v => snprintf (dec v)
  | .ifaceType v => snprintf (valueStr ifaceTypeStrs v)
  | .sourceIface v => snprintf (valueStr sourceIfaceStrs v)
  | .destIface v => snprintf (valueStr destIfaceStrs v)
  | .nodeId v => nodeIdToStr lib v
  | .upFeatures bits => bitsToStr bits upFeatureStrs
  | .cpFeatures bits => bitsToStr bits cpFeatureStrs
  | .fSeid v => fSeidToStr lib v
  | .fTeid v => fTeidToStr lib v
  | .applyAction bits => bitsToStr bits applyActionStrs
  | .networkInst s => snprintf (lib.quote s)
  | .ohc v => ohcToStr lib v
  | .apr s => snprintf (lib.quote s)
  | .ohr v => ohrToStr v
  | .ueIp v => ueIpToStr lib v

/-! ### Tables (gtlv_gen.c:258-324 with add_enc_to_str, gen__pfcp_ies_auto.c:363) -/

/-- `enc_to_str_func` of an entry for IEs of kind `k`: the member has that type, so a value of another kind is not the
image of a C struct. -/
def ieStrFn (lib : LibText) (k : IeKind) : Val IeVal → StrFn
  | .leaf v => if v.kind = k then ieToStr lib v else fun _ => .ub
  | .node _ => fun _ => .ub

mutual
/-- One entry of a coding table (gtlv_gen.c:270-279). -/
def Ty.strHow (lib : LibText) : Ty → StrHow IeVal
  | .ie k => .func (some (ieStrFn lib k))
  | .group f => .nested fun
    | .node slots => gtlvsToStr ieiStrs slots (some (f.strCodings lib))
    | .leaf _ => fun _ => .ub
/-- A coding table (gtlv_gen.c:305-324, 349-356). -/
def Fields.strCodings (lib : LibText) : Fields → List (StrCoding IeVal)
  | .nil => []
  | .cons tag kind ty f => { tag := tag, kind := kind, how := ty.strHow lib } :: f.strCodings lib
end

/-- `osmo_pfcp_ies_encode_to_str()` (gtlv_gen.c:397-401). -/
def iesToStr (lib : LibText) (type : Nat) (ies : Struct IeVal) : StrFn :=
  gtlvsToStr ieiStrs ies ((msgFields type).map fun f => f.strCodings lib)

/-! ### pfcp_msg.c -/

/-- `osmo_pfcp_msg_to_str_buf()` (pfcp_msg.c:566-580). -/
def msgToStr (lib : LibText) (m : PMsg) : StrFn := strFn fun sb =>
  (sb.printf (lit "PFCPv" ++ dec m.h.version ++ lit " " ++ valueStr messageTypeStrs m.h.type ++ lit " hdr={seq=" ++
    dec m.h.seq)).bind fun sb =>
  (sb.when m.h.prioPresent (StrBuf.printf (lit " prio=" ++ dec m.h.prio))).bind fun sb =>
  (sb.when m.h.seidPresent (StrBuf.printf (lit " SEID=0x" ++ hex m.h.seid))).bind fun sb =>
  (sb.printf (lit "} ies={")).bind fun sb =>
  (sb.append (iesToStr lib m.h.type m.ies)).bind fun sb =>
  sb.printf (lit " }")

/-- The number in the member that `osmo_pfcp_msg_cause()` points to; a member that was not set is zero. -/
def causeNr : List (Val IeVal) → Nat
  | .leaf (.cause v) :: _ => v
  | _ => 0

/-- `osmo_pfcp_msg_log_info_buf()` (pfcp_msg.c:587-616); `none` is NULL. -/
def msgLogInfo (lib : LibText) : Option PMsg → StrFn
  | none => strFn (StrBuf.printf (lit "NULL"))
  | some m => strFn fun sb =>
    (match m.ctx.sessionFi <|> m.ctx.peerFi with
      | some fi => sb.printf (lib.fsmName fi ++ lit "{" ++ lib.fsmState fi ++ lit "}: ")
      | none => sb.printf (lib.sockaddr m.remote)).bind fun sb =>
    (sb.printf (lit (if m.rx then "-rx->" else "<-tx-") ++ lit " PFCP seq-" ++ dec m.h.seq)).bind fun sb =>
    (sb.when m.h.seidPresent (StrBuf.printf (lit " SEID-0x" ++ hex m.h.seid))).bind fun sb =>
    (sb.printf (lit " " ++ valueStr messageTypeStrs m.h.type)).bind fun sb =>
    match m.cause with
    | some s => sb.printf (lit ": " ++ valueStr causeStrs (causeNr s))
    | none => .ok sb

/-! ### Strings on the heap -/

/-- `OSMO_NAME_C_IMPL(ctx, size, "ERROR", func, ..)` (libosmocore, trusted), used by all `*_to_str_c()` functions:
gtlv.c:63-67, gtlv_dec_enc.c:617-623, pfcp_ies_custom.c:382-385, 426-429, 556-559, 679-682, 900-903, pfcp_msg.c:582-585, 618-621.
`fresh n` is what is in `n` octets that talloc returns (not zeroed).  The outcome is the memory of the string. -/
def nameC (fresh : Nat → List UInt8) (size : Nat) (f : StrFn) : Res (List UInt8) :=
  (f (some (fresh size))).bind fun (buf, rc) =>
  match buf, rc with
  | _, .error _ => .ok (lit "ERROR" ++ [0])
  | some mem, .ok needed =>
    if needed < size then .ok mem
    else
      (f (some (fresh (needed + 1)))).bind fun (buf, rc) =>
      match buf, rc with
      | some mem, .ok needed' => if needed' < needed + 1 then .ok mem else .abort
      | _, _ => .ub
  | none, .ok _ => .ub

end Verif
