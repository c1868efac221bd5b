/-
The generated tables with the functions that print (gtlv_gen.c:270-279), and PROTO_ies_encode_to_str() in memory.
-/
import Verif.GenLayout
import Verif.LayoutStr
import Verif.PfcpLayout

namespace Verif

variable {A : Type}

/-- As `CLib.table`, with `.enc_to_str_func = PROTO_enc_to_str_SUFFIX` (gtlv_gen.c:277-278); `str` is NULL (`none`) everywhere if
`add_enc_to_str` is not set. -/
def CLib.ptable (l : CLib A) (str : Text → Option (A → StrFn)) : Tab → Option (PTab A)
  | .nil => some .nil
  | .func h s r =>
    (l.place h).bind fun x => (l.fn s).bind fun f => (l.ptable str r).bind fun r =>
    some (.cons x.1 (.leaf (f.leaf l.abi) (str s)) r)
  | .nested h n r =>
    (l.place h).bind fun x => (l.ptable str n).bind fun n => (l.ptable str r).bind fun r =>
    some (.cons x.1 (.nested (l.abi.size x.2) l.cfg l.ordered n) r)

/-- `PROTO_ies_encode_to_str()` (generated by gtlv_gen.c:396-402): `m` is the union, with `sizeof(*src)` bytes. -/
def CLib.iesToStr [DecidableEq A] (l : CLib A) (str : Text → Option (A → StrFn)) (names : ValueStrs) (tab : Option Tab) (m : Mem A) :
    StrFn :=
  gtlvsToStrM names 0 m ((tab.bind (l.ptable str)).map fun t => t.strEntries names)

/-- osmo_pfcp_enc_to_str_SUFFIX() (pfcp_ies_custom.c; `ieToStr`). -/
def Pfcp.str (lib : LibText) (s : Text) : Option (IeVal → StrFn) :=
  (Pfcp.function s).map fun k v => if v.kind = k then ieToStr lib v else fun _ => .ub

/-- `osmo_pfcp_msg_to_str_buf()` (pfcp_msg.c:566-580), where `ies` prints the union. -/
def msgToStrM (m : PMsg) (ies : StrFn) : StrFn := strFn fun sb =>
  (sb.printf (lit "PFCPv" ++ dec m.h.version ++ lit " " ++ valueStr messageTypeStrs m.h.type ++ lit " hdr={seq=" ++
    dec m.h.seq)).bind fun sb =>
  (sb.when m.h.prioPresent (StrBuf.printf (lit " prio=" ++ dec m.h.prio))).bind fun sb =>
  (sb.when m.h.seidPresent (StrBuf.printf (lit " SEID=0x" ++ hex m.h.seid))).bind fun sb =>
  (sb.printf (lit "} ies={")).bind fun sb =>
  (sb.append ies).bind fun sb =>
  sb.printf (lit " }")

end Verif
