/-
Model of src/libosmo-gtlv/gtlv_gen.c, character by character: what printf() puts out.  (`Gen` has the declarations
that this text stands for.)
-/
import Verif.Gen

namespace Verif

/-! ### The .h file -/

/-- One round of the loop in `write_ie_members()` (gtlv_gen.c:98-105). -/
def GCfg.membText (c : GCfg) (o : GOcc) (i : GInfo) : Text :=
  (if o.optional then lit "\tbool " ++ o.name ++ lit "_present;\n" else []) ++
  (lit "\t" ++ c.decodedType o i ++ lit " " ++ o.name) ++
  (if o.multi ≠ 0 then (lit "[" ++ dec o.multi ++ lit "];\n") ++ (lit "\tunsigned int " ++ o.name ++ lit "_count") else []) ++
  lit ";\n"

/-- `write_ie_members()` (gtlv_gen.c:94-107). -/
def GIes.membersText (c : GCfg) : GIes → Text
  | .nil => []
  | .ie o i r => c.membText o i ++ r.membersText c
  | .group o i _ r => c.membText o i ++ r.membersText c

/-- The comment before a struct (gtlv_gen.c:136-137).  `none`: `spec_ref_prefix` is NULL, which printf() must not
be given. -/
def GCfg.specComment (c : GCfg) (i : GInfo) : Option Text :=
  match i.specRef with
  | none => some []
  | some s => c.specRefPrefix.bind fun p => some (lit "/* " ++ p ++ s ++ lit " */\n")

/-- `write_ie_auto_structs()` (gtlv_gen.c:110-143). -/
def GIes.structsText (c : GCfg) : GIes → Seen → Option (Text × Seen)
  | .nil, l => some ([], l)
  | .ie _ _ r, l => r.structsText c l
  | .group o i n r, l =>
    (n.structsText c l).bind fun (t1, l) =>
    (seen l (c.decodedType o i) none).bind fun (b, l) =>
    (if b then some [] else (c.specComment i).bind fun s =>
      some (lit "\n" ++ s ++ (c.decodedType o i ++ lit " {\n") ++ n.membersText c ++ lit "};\n")).bind fun t =>
    (r.structsText c l).bind fun (t2, l) =>
    some (t1 ++ (t ++ t2), l)

/-- The loops over `msg_defs` in `write_auto_structs()` and `write_c()` (gtlv_gen.c:151-153, 346-353). -/
def eachMsgText (f : GIes → Seen → Option (Text × Seen)) : List GMsg → Seen → Option (Text × Seen)
  | [], l => some ([], l)
  | m :: ms, l =>
    (f m.ies l).bind fun (a, l) =>
    (eachMsgText f ms l).bind fun (b, l) => some (a ++ b, l)

/-- `write_msg_union()` (gtlv_gen.c:172-191). -/
def msgUnionText (c : GCfg) (ms : List GMsg) : Text :=
  (ms.flatMap fun m =>
    lit "\nstruct " ++ c.protoName ++ lit "_msg_" ++ m.name ++ lit " {\n" ++ m.ies.membersText c ++ lit "};\n") ++
  (lit "\nunion " ++ c.protoName ++ lit "_ies {\n") ++
  (ms.flatMap fun m => lit "\tstruct " ++ c.protoName ++ lit "_msg_" ++ m.name ++ lit " " ++ m.name ++ lit ";\n") ++
  lit "};\n"

/-- `g_cfg->message_type_enum ? : "int"` -/
def GCfg.msgEnum (c : GCfg) : Text := c.messageTypeEnum.getD (lit "int")

/-- `printf("\n%s\n", header)`, if there is one (gtlv_gen.c:200-201, 343-344). -/
def headerText : Option Text → Text
  | none => []
  | some h => lit "\n" ++ h ++ lit "\n"

/-- `write_h()` (gtlv_gen.c:195-220); `file` is `__FILE__`.  `none`: exit(1), or printf("%s", NULL). -/
def writeHText (c : GCfg) (file : Text) (ms : List GMsg) : Option Text :=
  (eachMsgText (GIes.structsText c) ms []).bind fun (t, _) =>
  some (
    (lit "/* THIS FILE IS GENERATED FROM " ++ file ++ lit " */\n") ++
    lit "#include <stdint.h>\n" ++
    lit "#include <osmocom/gtlv/gtlv_dec_enc.h>\n" ++
    headerText c.hHeader ++
    t ++
    msgUnionText c ms ++
    (lit "\nconst struct osmo_gtlv_coding *" ++ c.protoName ++ lit "_get_msg_coding(" ++ c.msgEnum ++ lit " message_type);\n") ++
    (lit "\nint " ++ c.protoName ++ lit "_ies_decode(union " ++ c.protoName ++
      lit "_ies *dst, struct osmo_gtlv_load *gtlv, bool tlv_ordered,\n\t" ++ c.msgEnum ++
      lit " message_type, osmo_gtlv_err_cb err_cb, void *err_cb_data, const struct value_string *iei_strs);\n") ++
    (lit "\nint " ++ c.protoName ++ lit "_ies_encode(struct osmo_gtlv_put *gtlv, const union " ++ c.protoName ++
      lit "_ies *src,\n\t" ++ c.msgEnum ++
      lit " message_type, osmo_gtlv_err_cb err_cb, void *err_cb_data, const struct value_string *iei_strs);\n") ++
    (lit "\nint " ++ c.protoName ++ lit "_ies_encode_to_str(char *buf, size_t buflen, const union " ++ c.protoName ++
      lit "_ies *src,\n\t" ++ c.msgEnum ++ lit " message_type, const struct value_string *iei_strs);\n"))

/-! ### The .c file -/

/-- The declarations of the functions of an IE (gtlv_gen.c:238-245). -/
def GCfg.externText (c : GCfg) (suffix : Text) : Text :=
  (lit "extern int " ++ c.protoName ++ lit "_dec_" ++ suffix ++
    lit "(void *decoded_struct, void *decode_to, const struct osmo_gtlv_load *gtlv);\n") ++
  (lit "extern int " ++ c.protoName ++ lit "_enc_" ++ suffix ++
    lit "(struct osmo_gtlv_put *gtlv, const void *decoded_struct, const void *encode_from);\n") ++
  (if c.addEncToStr then lit "extern int " ++ c.protoName ++ lit "_enc_to_str_" ++ suffix ++
    lit "(char *buf, size_t buflen, const void *encode_from);\n" else [])

/-- `write_extern_dec_enc()` (gtlv_gen.c:224-247). -/
def GIes.externsText (c : GCfg) : GIes → Seen → Option (Text × Seen)
  | .nil, l => some ([], l)
  | .ie o i r, l =>
    (seen l (suffixOf o i) none).bind fun (b, l) =>
    (r.externsText c l).bind fun (t, l) => some ((if b then [] else c.externText (suffixOf o i)) ++ t, l)
  | .group _ _ n r, l =>
    (n.externsText c l).bind fun (t1, l) =>
    (r.externsText c l).bind fun (t2, l) => some (t1 ++ t2, l)

/-- One round of the loop in `write_ies_array()` (gtlv_gen.c:262-292), where `body` is what is printed at 269-279.
`indent` is always a tab. -/
def GCfg.entryText (c : GCfg) (obj sub : Text) (o : GOcc) (i : GInfo) (body : Text) : Text :=
  (lit "\t" ++ lit "{ { " ++ c.tagPrefix ++ toUpper (i.tagName.getD o.name)) ++
  (match o.inst with | some t => lit ", true, " ++ t | none => []) ++
  lit " },\n" ++
  (lit "\t" ++ lit "  .memb_ofs = offsetof(" ++ obj ++ lit ", " ++ sub ++ o.name ++ lit "),\n") ++
  body ++
  (if o.multi ≠ 0 then
    (lit "\t" ++ lit "  .memb_array_pitch = OSMO_MEMB_ARRAY_PITCH(" ++ obj ++ lit ", " ++ sub ++ o.name ++ lit "),\n") ++
    (lit "\t" ++ lit "  .has_count = true, .count_max = " ++ dec o.multi ++ lit ",\n") ++
    (lit "\t" ++ lit "  .count_mandatory = " ++ dec o.multiMandatory ++ lit ",\n") ++
    (lit "\t" ++ lit "  .count_ofs = offsetof(" ++ obj ++ lit ", " ++ sub ++ o.name ++ lit "_count),\n")
   else []) ++
  (if o.optional then
    (lit "\t" ++ lit "  .has_presence_flag = true,\n") ++
    (lit "\t" ++ lit "  .presence_flag_ofs = offsetof(" ++ obj ++ lit ", " ++ sub ++ o.name ++ lit "_present),\n")
   else []) ++
  (lit "\t" ++ lit "},\n")

/-- `.dec_func`, `.enc_func`, `.enc_to_str_func` (gtlv_gen.c:272-278). -/
def GCfg.funcsText (c : GCfg) (suffix : Text) : Text :=
  (lit "\t" ++ lit "  .dec_func = " ++ c.protoName ++ lit "_dec_" ++ suffix ++ lit ",\n") ++
  (lit "\t" ++ lit "  .enc_func = " ++ c.protoName ++ lit "_enc_" ++ suffix ++ lit ",\n") ++
  (if c.addEncToStr then lit "\t" ++ lit "  .enc_to_str_func = " ++ c.protoName ++ lit "_enc_to_str_" ++ suffix ++ lit ",\n" else [])

/-- `.nested_ies` (gtlv_gen.c:270). -/
def nestedText (tagName : Text) : Text := lit "\t" ++ lit "  .nested_ies = ies_in_" ++ tagName ++ lit ",\n"

/-- `write_ies_array()` (gtlv_gen.c:257-294); here `sub` is empty or ends in a dot, as in the code. -/
def GIes.entriesText (c : GCfg) (obj sub : Text) : GIes → Text
  | .nil => []
  | .ie o i r => c.entryText obj sub o i (c.funcsText (suffixOf o i)) ++ r.entriesText c obj sub
  | .group o i _ r => c.entryText obj sub o i (nestedText (i.tagName.getD o.name)) ++ r.entriesText c obj sub

/-- `write_nested_ies_array()` (gtlv_gen.c:306-327). -/
def GIes.arraysText (c : GCfg) : GIes → Seen → Option (Text × Seen)
  | .nil, l => some ([], l)
  | .ie _ _ r, l => r.arraysText c l
  | .group o i n r, l =>
    (n.arraysText c l).bind fun (t1, l) =>
    (seen l (i.tagName.getD o.name) (some i.addr)).bind fun (b, l) =>
    (r.arraysText c l).bind fun (t2, l) =>
    some (t1 ++ ((if b then [] else
      (lit "\nstatic const struct osmo_gtlv_coding ies_in_" ++ i.tagName.getD o.name ++ lit "[] = {\n") ++
      n.entriesText c (c.decodedType o i) [] ++ (lit "\t" ++ lit "{}\n") ++ lit "};\n") ++ t2), l)

/-- The array of a message (gtlv_gen.c:355-364). -/
def msgArrayText (c : GCfg) (m : GMsg) : Text :=
  (lit "\nstatic const struct osmo_gtlv_coding ies_in_msg_" ++ m.name ++ lit "[] = {\n") ++
  m.ies.entriesText c (lit "union " ++ c.protoName ++ lit "_ies") (m.name ++ lit ".") ++
  lit "\t{}\n};\n"

/-- `msg_defs[]` (gtlv_gen.c:365-369). -/
def msgDefsText (c : GCfg) (ms : List GMsg) : Text :=
  lit "\nstatic const struct osmo_gtlv_coding *msg_defs[] = {\n" ++
  (ms.flatMap fun m =>
    lit "\t[" ++ c.messageTypePrefix ++ toUpper m.name ++ lit "] = ies_in_msg_" ++ m.name ++ lit ",\n") ++
  lit "};\n"

/-- The functions (gtlv_gen.c:371-402). -/
def functionsText (c : GCfg) : Text :=
  (lit "\nconst struct osmo_gtlv_coding *" ++ c.protoName ++ lit "_get_msg_coding(" ++ c.msgEnum ++
    lit " message_type)\n{\n\tif (message_type >= ARRAY_SIZE(msg_defs))\n\t\treturn NULL;\n\treturn msg_defs[message_type];\n}\n") ++
  (lit "\nint " ++ c.protoName ++ lit "_ies_decode(union " ++ c.protoName ++
    lit "_ies *dst, struct osmo_gtlv_load *gtlv, bool tlv_ordered,\n\t" ++ c.msgEnum ++
    lit " message_type,\n\tosmo_gtlv_err_cb err_cb, void *err_cb_data, const struct value_string *iei_strs)\n{\n\treturn osmo_gtlvs_decode(dst, sizeof(*dst), 0, gtlv, tlv_ordered, " ++
    c.protoName ++ lit "_get_msg_coding(message_type),\n\t\terr_cb, err_cb_data, iei_strs);\n}\n") ++
  (lit "\nint " ++ c.protoName ++ lit "_ies_encode(struct osmo_gtlv_put *gtlv, const union " ++ c.protoName ++
    lit "_ies *src,\n\t" ++ c.msgEnum ++
    lit " message_type, osmo_gtlv_err_cb err_cb, void *err_cb_data, const struct value_string *iei_strs)\n{\n\treturn osmo_gtlvs_encode(gtlv, src, sizeof(*src), 0, " ++
    c.protoName ++ lit "_get_msg_coding(message_type),\n\t\terr_cb, err_cb_data, iei_strs);\n}\n") ++
  (lit "\nint " ++ c.protoName ++ lit "_ies_encode_to_str(char *buf, size_t buflen, const union " ++ c.protoName ++
    lit "_ies *src,\n\t" ++ c.msgEnum ++
    lit " message_type, const struct value_string *iei_strs)\n{\n\treturn osmo_gtlvs_encode_to_str_buf(buf, buflen, src, sizeof(*src), 0, " ++
    c.protoName ++ lit "_get_msg_coding(message_type), iei_strs);\n}\n")

/-- `write_c()` (gtlv_gen.c:332-403); `file` is `__FILE__`.  `none`: exit(1). -/
def writeCText (c : GCfg) (file : Text) (ms : List GMsg) : Option Text :=
  (eachMsgText (GIes.externsText c) ms []).bind fun (e, _) =>
  (eachMsgText (GIes.arraysText c) ms []).bind fun (a, _) =>
  some (
    (lit "/* THIS FILE IS GENERATED FROM " ++ file ++ lit " */\n") ++
    lit "#include <stddef.h>\n" ++
    lit "#include <errno.h>\n" ++
    lit "#include <osmocom/core/utils.h>\n" ++
    lit "#include <osmocom/gtlv/gtlv.h>\n" ++
    lit "#include <osmocom/gtlv/gtlv_dec_enc.h>\n" ++
    lit "#include <osmocom/gtlv/gtlv_gen.h>\n" ++
    headerText c.cHeader ++
    lit "\n" ++
    e ++
    a ++
    ms.flatMap (msgArrayText c) ++
    msgDefsText c ms ++
    functionsText c)

/-- `osmo_gtlv_gen_main()` (gtlv_gen.c:407-424): what is printed and returned; `args` are argv[1] and what follows. -/
def genMain (c : GCfg) (file : Text) (ms : List GMsg) (args : List Text) : Option (Text × Nat) :=
  match args with
  | [] => some ([], 1)
  | a :: _ =>
    if a = lit "h" then (writeHText c file ms).bind fun t => some (t, 0)
    else if a = lit "c" then (writeCText c file ms).bind fun t => some (t, 0)
    else some ([], 1)

end Verif
