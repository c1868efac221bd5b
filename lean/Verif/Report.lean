/-
Model of the error reporting in src/libosmo-gtlv/gtlv_dec_enc.c: which calls of err_cb() decoding and encoding make.  The
functions are those of DecEnc.lean, once more, with RETURN_ERROR() spelled out; ReportLemmas.lean proves that they return
the same.
-/
import Verif.Msg

namespace Verif

/-- The messages that RETURN_ERROR() is used with. -/
inductive Complaint where
  /-- "Decoding IEs failed on or after this tag" (gtlv_dec_enc.c:120) -/
  | broken
  /-- "Only %u instances of this IE are supported per message" (gtlv_dec_enc.c:176, 342, 501) -/
  | surplus (max : Nat)
  /-- "Error while decoding TLV structure nested inside this IE" (gtlv_dec_enc.c:215, 380), and the same for encoding
  (line 514) -/
  | inside
  /-- "IE definition lacks a dec_func()" (gtlv_dec_enc.c:219, 385) -/
  | noDecoder
  /-- "Error while decoding this IE. L=%zu V=[ %s%s]" (gtlv_dec_enc.c:223): the length, up to 16 octets of the value, and
  whether there are more -/
  | value (len : Nat) (octets : List UInt8) (more : Bool)
  /-- "%u instances of this IE are mandatory, got %u" (gtlv_dec_enc.c:250) -/
  | tooFew (mandatory got : Nat)
  /-- "Missing mandatory IE" (gtlv_dec_enc.c:257, 308) -/
  | missing
  /-- "Too many IE definitions for decoding an unordered TLV structure" (gtlv_dec_enc.c:101) -/
  | tooManyEntries
  /-- "Error in TLV structure" (gtlv_dec_enc.c:313) -/
  | broken'
  /-- "Error while decoding this IE" (gtlv_dec_enc.c:388) -/
  | value'
  /-- "Error while encoding this IE" (gtlv_dec_enc.c:519) -/
  | notEncoded
  deriving DecidableEq, Repr

/-- A call of err_cb() by RETURN_ERROR() (gtlv_dec_enc.c:31-48): the tag with its instance, the message, and the error code.
Not modelled: the arguments `err_cb_data` and `decoded_struct`, which are those that the caller passed, file name, line, and
how the message is formatted. -/
structure Report where
  ti : TagInst
  rc : Errno
  text : Complaint
  deriving DecidableEq, Repr

/-- What a decoding function returns, and the calls of err_cb() it makes. -/
abbrev Rep (α : Type) := Res α × List Report

/-- Sequencing, like `Res.bind`. -/
def Rep.bind {α β} (x : Rep α) (f : α → Rep β) : Rep β :=
  match x with
  | (.ok a, l) => ((f a).1, l ++ (f a).2)
  | (.err e, l) => (.err e, l)
  | (.abort, l) => (.abort, l)
  | (.ub, l) => (.ub, l)
  | (.diverge, l) => (.diverge, l)

/-- `RETURN_ERROR()` (gtlv_dec_enc.c:31-48) -/
def returnError {α} (rc : Errno) (ti : TagInst) (text : Complaint) : Rep α := (.err rc, [{ ti := ti, rc := rc, text := text }])

/-- `struct osmo_gtlv_coding` (gtlv_dec_enc.h:76-178) with the reports that are made while a value is decoded or encoded:
by the inner osmo_gtlvs_decode() and osmo_gtlvs_encode() if there are nested IEs; a dec_func() or enc_func() is not
given err_cb. -/
structure RCoding (A : Type) where
  c : Coding A
  nested : Bool
  decReports : List UInt8 → Nat → List Report
  encReports : Val A → Msgb → List Report

variable {A : Type}

/-- The table without reports. -/
abbrev unreported (cs : List (RCoding A)) : List (Coding A) := cs.map RCoding.c

/-! ### Unordered decoding -/

/-- The message when the value of an IE was not decoded (gtlv_dec_enc.c:213-226). -/
def RCoding.complaint (c : RCoding A) (p : List UInt8) (n : Nat) : Complaint :=
  if c.nested then .inside else .value n (p.take (min 16 n)) (decide (n > 16))

/-- Decode one IE (gtlv_dec_enc.c:126-237), see `decodeOne`. -/
def decodeOneR (cs : List (RCoding A)) (slots : Struct A) (ti : TagInst) (p : List UInt8) (n : Nat) : Rep (Struct A) :=
  match findSlot ti (unreported cs) slots 0 0 with
  | .tooMany => returnError .ENOTSUP ti .tooManyEntries
  | .full maxAllowed => if maxAllowed ≠ 0 then returnError .ENOTSUP ti (.surplus maxAllowed) else (.ok slots, [])
  | .slot idx =>
    match cs[idx]?, slots[idx]? with
    | some c, some s =>
      match c.c.dec with
      | none => returnError .EIO ti .noDecoder
      | some dec =>
        Rep.bind (match dec p n with
          | .err e => (.err e, c.decReports p n ++ [{ ti := ti, rc := e, text := c.complaint p n }])
          | r => (r, c.decReports p n)) fun v =>
        Rep.bind (storeVal c.c.kind s v, []) fun s' =>
        if idx ≥ maxCodings then returnError .ENOTSUP ti .tooManyEntries else (.ok (slots.set idx s'), [])
    | _, _ => (.ub, [])

/-- The loop over the IEs (gtlv_dec_enc.c:111-240), see `decodeUnorderedLoop`; in the end also what `gtlv->ti` is then. -/
def decodeUnorderedLoopR (cs : List (RCoding A)) : Nat → Struct A → Load → Rep (Struct A × TagInst)
  | 0, _, _ => (.diverge, [])
  | fuel + 1, slots, g =>
    match loadNext g with
    | .ok g' =>
      match g'.val with
      | none => (.ok (slots, g'.ti), [])
      | some _ =>
        Rep.bind (decodeOneR cs slots g'.ti g'.valueMem g'.len) fun slots' => decodeUnorderedLoopR cs fuel slots' g'
    | .err e g' => returnError e g'.ti .broken
    | .abort => (.abort, [])
    | .ub => (.ub, [])
    | .diverge => (.diverge, [])

/-- The check for mandatory IEs at the end (gtlv_dec_enc.c:242-258), see `checkMandatory`. `last`: `gtlv->ti`. -/
def checkMandatoryR (last : TagInst) : List (RCoding A) → Struct A → (idx : Nat) → Rep Unit
  | c :: cs, s :: ss, idx =>
    match c.c.kind with
    | .opt => checkMandatoryR last cs ss (idx + 1)
    | .multi _ mandatory =>
      if s.length < mandatory then returnError .EINVAL c.c.ti (.tooFew mandatory s.length)
      else checkMandatoryR last cs ss (idx + 1)
    | .mand =>
      if idx ≥ maxCodings then returnError .ENOTSUP last .tooManyEntries
      else if s.length = 0 then returnError .EINVAL c.c.ti .missing
      else checkMandatoryR last cs ss (idx + 1)
  | _, _, _ => (.ok (), [])

/-- `osmo_gtlvs_decode_unordered()` (gtlv_dec_enc.c:83-260) -/
def decodeUnorderedR (cs : List (RCoding A)) (g : Load) : Rep (Struct A) :=
  (decodeUnorderedLoopR cs (g.srcLen + 2) (emptyStruct (unreported cs)) g.start).bind fun x =>
  (checkMandatoryR x.2 cs x.1 0).bind fun _ => (.ok x.1, [])

/-! ### Ordered decoding -/

/-- Position in the table, see `OrdPos`. -/
structure OrdPosR (A : Type) where
  c : RCoding A
  s : List (Val A)
  cs : List (RCoding A)
  done : List (List (Val A))

/-- Search a later entry with the same tag (gtlv_dec_enc.c:334-339), see `findLater`. -/
def findLaterR (ti : TagInst) : List (RCoding A) → Option (Nat × RCoding A × List (RCoding A))
  | [] => none
  | c :: cs =>
    if tagInstCmp (some ti) (some c.c.ti) = 0 then some (0, c, cs)
    else (findLaterR ti cs).map fun (k, r) => (k + 1, r)

/-- "This repeated IE is full" (gtlv_dec_enc.c:329-351), see `ordTarget`. -/
def ordTargetR (pos : OrdPosR A) (ti : TagInst) : Rep (OrdPosR A) :=
  match pos.c.c.kind with
  | .multi max _ =>
    if pos.s.length ≥ max then
      match findLaterR ti pos.cs with
      | none => returnError .ENOTSUP pos.c.c.ti (.surplus max)
      | some (k, c', cs') =>
        (.ok { c := c', s := [], cs := cs', done := List.replicate k [] ++ pos.s :: pos.done }, [])
    else (.ok pos, [])
  | _ => (.ok pos, [])

mutual
/-- The loop over the table (gtlv_dec_enc.c:287-417), see `decodeOrderedOuter`. -/
def decodeOrderedOuterR : Nat → List (RCoding A) → List (List (Val A)) → Load → Rep (Struct A)
  | 0, _, _, _ => (.diverge, [])
  | _ + 1, [], done, _ => (.ok done.reverse, [])
  | fuel + 1, c :: cs, done, g =>
    match nextByTagInst g c.c.ti with
    | .ok g' => decodeOrderedInnerR fuel { c := c, s := [], cs := cs, done := done } g'
    | .err .ENOENT _ =>
      match c.c.kind with
      | .opt => decodeOrderedOuterR fuel cs ([] :: done) g
      | .mand => returnError .ENOENT c.c.ti .missing
      | .multi _ mandatory =>
        if 0 < mandatory then returnError .ENOENT c.c.ti .missing else decodeOrderedOuterR fuel cs ([] :: done) g
    | .err e _ => returnError e c.c.ti .broken'
    | .abort => (.abort, [])
    | .ub => (.ub, [])
    | .diverge => (.diverge, [])
/-- The loop over directly following IEs of the same tag (gtlv_dec_enc.c:316-415), see `decodeOrderedInner`.  The error in
line 413 is not reported. -/
def decodeOrderedInnerR : Nat → OrdPosR A → Load → Rep (Struct A)
  | 0, _, _ => (.diverge, [])
  | fuel + 1, pos, g =>
    Rep.bind (ordTargetR pos g.ti) fun pos =>
    match pos.c.c.dec with
    | none => returnError .EIO pos.c.c.ti .noDecoder
    | some dec =>
      Rep.bind (match dec g.valueMem g.len with
        | .err e => (.err e, pos.c.decReports g.valueMem g.len ++
            [{ ti := pos.c.c.ti, rc := e, text := if pos.c.nested then .inside else .value' }])
        | r => (r, pos.c.decReports g.valueMem g.len)) fun v =>
      Rep.bind (storeVal pos.c.c.kind pos.s v, []) fun s =>
      match pos.c.c.kind with
      | .multi _ _ =>
        match peekTag g with
        | .ok ti =>
          if ti.cmp g.ti ≠ 0 then decodeOrderedOuterR fuel pos.cs (s :: pos.done) g
          else
            match loadNext g with
            | .ok g' => decodeOrderedInnerR fuel { pos with s := s } g'
            | .err e _ => (.err e, [])
            | .abort => (.abort, [])
            | .ub => (.ub, [])
            | .diverge => (.diverge, [])
        | .err _ => decodeOrderedOuterR fuel pos.cs (s :: pos.done) g
        | .abort => (.abort, [])
        | .ub => (.ub, [])
        | .diverge => (.diverge, [])
      | _ => decodeOrderedOuterR fuel pos.cs (s :: pos.done) g
end

/-- `osmo_gtlvs_decode_ordered()` (gtlv_dec_enc.c:276-420) -/
def decodeOrderedR (cs : List (RCoding A)) (g : Load) : Rep (Struct A) :=
  decodeOrderedOuterR (cs.length + g.srcLen + 2) cs [] g.start

/-- `osmo_gtlvs_decode()` (gtlv_dec_enc.c:434-447); `none` is a NULL table, for which nothing is reported. -/
def gtlvsDecodeR (g : Load) (ordered : Bool) : Option (List (RCoding A)) → Rep (Struct A)
  | none => (.err .ENOTSUP, [])
  | some cs => if ordered then decodeOrderedR cs g else decodeUnorderedR cs g

/-! ### Encoding -/

/-- The loop over the values of one member (gtlv_dec_enc.c:494-523), see `encodeVals`. -/
def encodeValsR (cfg : Cfg) (c : RCoding A) : List (Val A) → Nat → Put → Msgb → Out (Put × Msgb) × List Report
  | [], _, p, b => (.ok (p, b), [])
  | v :: vs, i, p, b =>
    let (p, b) := ignoreErr (putTli cfg p b c.c.ti 0) p b
    if c.c.kind.exceeds i then
      (.err .ENOTSUP (p, b), [{ ti := c.c.ti, rc := .ENOTSUP, text := .surplus c.c.kind.cap }])
    else
      match c.c.enc with
      | none => (.ub, [])
      | some enc =>
        match enc v b with
        | .ok b1 =>
          let (p2, b2) := ignoreErr (putUpdateTl cfg p b1) p b1
          ((encodeValsR cfg c vs (i + 1) p2 b2).1, c.encReports v b ++ (encodeValsR cfg c vs (i + 1) p2 b2).2)
        | .err e b1 => (.err e (p, b1), c.encReports v b ++
            [{ ti := c.c.ti, rc := e, text := if c.nested then .inside else .notEncoded }])
        | .abort => (.abort, [])
        | .ub => (.ub, [])
        | .diverge => (.diverge, [])

/-- `osmo_gtlvs_encode()` (gtlv_dec_enc.c:462-526) for a non-NULL table, see `encodeTable`. -/
def encodeTableR (cfg : Cfg) : List (RCoding A) → Struct A → Put → Msgb → Out (Put × Msgb) × List Report
  | [], _, p, b => (.ok (p, b), [])
  | _ :: _, [], _, _ => (.ub, [])
  | c :: cs, s :: ss, p, b =>
    match membVals c.c.kind s with
    | none => (.ub, [])
    | some vs =>
      match encodeValsR cfg c vs 0 p b with
      | (.ok (p, b), l) => ((encodeTableR cfg cs ss p b).1, l ++ (encodeTableR cfg cs ss p b).2)
      | (.err e pb, l) => (.err e pb, l)
      | (.abort, l) => (.abort, l)
      | (.ub, l) => (.ub, l)
      | (.diverge, l) => (.diverge, l)

/-- `osmo_gtlvs_encode()`, see `gtlvsEncode`; `none` is a NULL table, for which nothing is reported. -/
def gtlvsEncodeR (cfg : Cfg) (slots : Struct A) (b : Msgb) : Option (List (RCoding A)) → Out Msgb × List Report
  | none => (.err .ENOTSUP b, [])
  | some cs => (dropPut (encodeTableR cfg cs slots {} b).1, (encodeTableR cfg cs slots {} b).2)

/-! ### PFCP -/

/-- An entry with `.nested_ies = inner`, see `nestedCoding`. -/
def nestedRCoding (ti : TagInst) (kind : Kind) (cfg : Cfg) (ordered : Bool) (inner : List (RCoding A)) : RCoding A where
  c := nestedCoding ti kind cfg ordered (unreported inner)
  nested := true
  decReports := fun p n => (gtlvsDecodeR { cfg := cfg, mem := p, srcLen := n } ordered (some inner)).2
  encReports := fun v b =>
    match v with
    | .node s => (gtlvsEncodeR cfg s b (some inner)).2
    | .leaf _ => []

/-- An entry with a `dec_func` and an `enc_func`. -/
def leafRCoding (c : Coding A) : RCoding A where
  c := c
  nested := false
  decReports := fun _ _ => []
  encReports := fun _ _ => []

mutual
/-- One entry of a generated table, see `Ty.coding`. -/
def Ty.rcoding (tag : Nat) (kind : Kind) : Ty → RCoding IeVal
  | .ie k => leafRCoding (ieCoding tag kind k)
  | .group f => nestedRCoding { tag := tag } kind t16l16v false f.rcodings
/-- A generated table, see `Fields.codings`. -/
def Fields.rcodings : Fields → List (RCoding IeVal)
  | .nil => []
  | .cons tag kind ty f => ty.rcoding tag kind :: f.rcodings
end

/-- `osmo_pfcp_msg_decode_tlv()` (pfcp_msg.c:339-342): osmo_pfcp_msg_err_cb() gets the reports and logs each as one line. -/
def decodeTlvR (d : DecHdr) : Rep (Struct IeVal) :=
  gtlvsDecodeR { cfg := t16l16v, mem := d.tlvMem, srcLen := d.tlvLen } false ((msgFields d.h.type).map Fields.rcodings)

/-- `osmo_pfcp_msg_encode_tlv()` (pfcp_msg.c:344-351): the same. -/
def encTlvR (h : Hdr) (ies : Struct IeVal) (b : Msgb) : Out Msgb × List Report :=
  gtlvsEncodeR t16l16v ies b ((msgFields h.type).map Fields.rcodings)

end Verif
