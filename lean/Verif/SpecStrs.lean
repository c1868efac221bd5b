/-
Specification for the functions that print: what it means to print a text like snprintf(), and the texts.
Nothing here uses `struct osmo_strbuf` or the functions of the model that print.
-/
import Verif.Strs

namespace Verif.Spec

/-- `w` before and `w'` after: `w'` starts with as much of the text as fits, NUL terminated; nothing else has changed,
in particular nothing outside. -/
def Printed (t : Text) (w w' : List UInt8) : Prop :=
  w'.length = w.length ∧
    (0 < w.length →
      w'.take (min t.length (w.length - 1)) = t.take (min t.length (w.length - 1)) ∧
      w'[min t.length (w.length - 1)]? = some 0 ∧
      ∀ i, min t.length (w.length - 1) < i → w'[i]? = w[i]?)

/-- The function prints the text to buffers of any size as snprintf() does, and returns its length. -/
def PrintsLikeSnprintf (f : StrFn) (t : Text) : Prop :=
  ∀ w : List UInt8, ∃ w', f (some w) = .ok (some w', .ok t.length) ∧ Printed t w w'

/-- Called with NULL, the function returns the length of the text. -/
def CountsWithNull (f : StrFn) (t : Text) : Prop := f none = .ok (none, .ok t.length)

/-- The memory holds the text as NUL terminated string (texts have no NUL inside). -/
def HoldsString (mem : List UInt8) (t : Text) : Prop := ∃ junk, mem = t ++ 0 :: junk

/-! #### Texts -/

/-- `yes` if the condition holds. -/
def textIf (cond : Bool) (yes : Text) : Text := if cond then yes else []

/-- The texts with a separator in between. -/
def joined (sep : String) (ts : List Text) : Text := List.intercalate (lit sep) ts

/-- Bit number `n` in an array of octets. -/
def bitSet (bits : List UInt8) (n : Nat) : Bool := (bits.getD (n / 8) 0).toNat.testBit (n % 8)

/-- The names of the bits that are set, or "-". -/
def bitsText (bits : List UInt8) (names : ValueStrs) : Text :=
  match names.filter fun e => bitSet bits e.1 with
  | [] => lit "-"
  | es => joined "+" (es.map fun e => lit e.2)

/-- Addresses. -/
def ipText (lib : LibText) (a : IpAddrs) : Text :=
  match a.v4Present, a.v6Present with
  | false, false => lit "empty:-addr"
  | true, false => lit "v4:" ++ lib.sockaddr a.v4
  | false, true => lit "v6:" ++ lib.sockaddr a.v6
  | true, true => lit "v4:" ++ lib.sockaddr a.v4 ++ lit ",v6:" ++ lib.sockaddr a.v6

/-- The text of an IE value.  `sep` is the separator of the UE IP address flags; it is also
in front of the flags if CHV4 is not among them. -/
def ieTextSep (sep : String) (lib : LibText) : IeVal → Text
  | .cause v => valueStr causeStrs v
  | .offendingIe v => valueStr ieiStrs v
  | .u8 v | .u16 v | .u32 v => dec v
  | .ifaceType v => valueStr ifaceTypeStrs v
  | .sourceIface v => valueStr sourceIfaceStrs v
  | .destIface v => valueStr destIfaceStrs v
  | .nodeId (.v4 ip) => lit "v4:" ++ lib.sockaddr ip
  | .nodeId (.v6 ip) => lit "v6:" ++ lib.sockaddr ip
  | .nodeId (.fqdn s) => lit "fqdn:" ++ lib.quote s
  | .nodeId (.other t) => lit "unknown-node-id-type-" ++ dec t
  | .upFeatures bits => bitsText bits upFeatureStrs
  | .cpFeatures bits => bitsText bits cpFeatureStrs
  | .applyAction bits => bitsText bits applyActionStrs
  | .fSeid f => lit "0x" ++ hex f.seid ++ lit "," ++ ipText lib f.ip
  | .fTeid (.fixed teid ip) => lit "TEID-0x" ++ hex teid ++ lit "," ++ ipText lib ip
  | .fTeid (.choose v4 v6 idp id) =>
    lit "CHOOSE" ++ textIf v4 (lit "-v4") ++ textIf v6 (lit "-v6") ++ textIf idp (lit "-id" ++ dec id)
  | .networkInst s | .apr s => lib.quote s
  | .ohc o =>
    bitsText o.desc ohcStrs ++ textIf o.teidPresent (lit ",TEID:0x" ++ hex o.teid) ++ lit "," ++ ipText lib o.ip ++
      textIf o.portPresent (lit ",port:" ++ dec o.port) ++ textIf o.cTagPresent (lit ",c-tag:" ++ dec o.cTag) ++
      textIf o.sTagPresent (lit ",s-tag:" ++ dec o.sTag)
  | .ohr o => valueStr ohrStrs o.desc ++ textIf o.extPresent (lit ",ext-hdr-del:0x" ++ hex o.ext)
  | .ueIp u =>
    textIf u.chv4 (lit "chv4") ++ textIf u.chv6 (lit sep ++ lit "chv4") ++ textIf u.isDest (lit sep ++ lit "dst") ++
      textIf (u.chv4 || u.chv6 || u.isDest) (lit sep) ++ ipText lib u.ip ++
      textIf u.delegPresent (lit ",ipv6-prefix-deleg:" ++ hex u.deleg) ++
      textIf u.plenPresent (lit ",ipv6-prefix-len:" ++ dec u.plen)

/-- The text of an IE value. -/
abbrev ieText := ieTextSep ","

/-- Several values of a repeated IE in braces, a single one without. -/
def valuesText (kind : Kind) (ts : List Text) : Text :=
  match kind with
  | .multi _ _ => lit "{ " ++ joined ", " ts ++ lit " }"
  | _ => ts.flatten

mutual
/-- The text of a value. -/
def valTextSep (sep : String) (lib : LibText) : Ty → Val IeVal → Text
  | .ie _, .leaf v => ieTextSep sep lib v
  | .group f, .node s => lit "{" ++ structTextSep sep lib f s ++ lit " }"
  | _, _ => []
/-- The text of a struct: in the order of the definition, each IE that is there with its name and values. -/
def structTextSep (sep : String) (lib : LibText) : Fields → Struct IeVal → Text
  | .cons iei kind ty f, vs :: s =>
    (if vs.isEmpty then []
      else lit " '" ++ valueStr ieiStrs iei ++ lit "'=" ++ valuesText kind (vs.map fun v => valTextSep sep lib ty v)) ++
    structTextSep sep lib f s
  | _, _ => []
end

abbrev valText := valTextSep ","
abbrev structText := structTextSep ","

/-- The text of a message. -/
def msgTextSep (sep : String) (lib : LibText) (f : Fields) (m : PMsg) : Text :=
  lit "PFCPv" ++ dec m.h.version ++ lit " " ++ valueStr messageTypeStrs m.h.type ++ lit " hdr={seq=" ++ dec m.h.seq ++
    textIf m.h.prioPresent (lit " prio=" ++ dec m.h.prio) ++ textIf m.h.seidPresent (lit " SEID=0x" ++ hex m.h.seid) ++
    lit "} ies={" ++ structTextSep sep lib f m.ies ++ lit " }"

abbrev msgText := msgTextSep ","

/-- The text of a message in a log line, for the FSM instance that the message belongs to (if any) and the number of its
Cause IE (if the message has one). -/
def logText (lib : LibText) (fi cause : Option Nat) (m : PMsg) : Text :=
  (match fi with
    | some fi => lib.fsmName fi ++ lit "{" ++ lib.fsmState fi ++ lit "}: "
    | none => lib.sockaddr m.remote) ++
  (if m.rx then lit "-rx->" else lit "<-tx-") ++ lit " PFCP seq-" ++ dec m.h.seq ++
  textIf m.h.seidPresent (lit " SEID-0x" ++ hex m.h.seid) ++ lit " " ++ valueStr messageTypeStrs m.h.type ++
  (match cause with
    | some c => lit ": " ++ valueStr causeStrs c
    | none => [])

/-- The text of a tag: its name, if there are names, and the instance, if there is one. -/
def tagText (names : Option ValueStrs) (ti : TagInst) : Text :=
  (match names with
    | some vs => valueStr vs ti.tag
    | none => dec ti.tag) ++
  (match ti.inst with
    | some i => lit "[" ++ dec i ++ lit "]"
    | none => [])

/-! #### Structs as they are in C -/

/-- Bit fields have the size of the array in the struct (pfcp_ies_custom.h). -/
def ArraySizes : IeVal → Prop
  | .upFeatures bits => bits.length = 6
  | .cpFeatures bits => bits.length = 1
  | .applyAction bits => bits.length = 2
  | .ohc o => o.desc.length = 2
  | _ => True

/-- How many values a member of a C struct with a sane count has. -/
def CountOk : Kind → Nat → Prop
  | .mand, n => n = 1
  | .opt, n => n ≤ 1
  | .multi max _, n => n ≤ max

mutual
/-- The value has the type of the member. -/
def ValTyped : Ty → Val IeVal → Prop
  | .ie k, .leaf v => v.kind = k ∧ ArraySizes v
  | .group f, .node s => StructTyped f s
  | _, _ => False
/-- All members have values of their types, and counts do not exceed their arrays. -/
def StructTyped : Fields → Struct IeVal → Prop
  | .nil, [] => True
  | .cons _ kind ty f, vs :: s => CountOk kind vs.length ∧ (∀ v ∈ vs, ValTyped ty v) ∧ StructTyped f s
  | _, _ => False
end

mutual
/-- The value is or contains a UE IP address with one of the flags CHV4, CHV6, destination. -/
def HasUeIpFlag : Ty → Val IeVal → Prop
  | .ie _, .leaf (.ueIp u) => u.chv4 ∨ u.chv6 ∨ u.isDest
  | .group f, .node s => HasUeIpFlags f s
  | _, _ => False
def HasUeIpFlags : Fields → Struct IeVal → Prop
  | .cons _ _ ty f, vs :: s => (∃ v ∈ vs, HasUeIpFlag ty v) ∨ HasUeIpFlags f s
  | _, _ => False
end

end Verif.Spec
