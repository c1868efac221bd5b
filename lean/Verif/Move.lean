/-
Model of writing IEs in a format whose store_tl() moves the data of the msgb: src/libosmo-gtlv/gtlv.c:255-284 and
gtlv_dec_enc.c:462-526.

In Gtlv.lean and DecEnc.lean store_tl() writes octets at `dst_data` and nothing else.  gtlv.h:78-96 also allows it to change
the msgb when it is called by `osmo_gtlv_put_update_tl()`: "If the TL part's size can be different than the first time (e.g. due
to a large L value in a TvLV protocol), an implementation can use the 'gtlv' arg to figure out how to memmove the message data".
-/
import Verif.DecEnc

namespace Verif

variable {A : Type}

/-- `struct osmo_gtlv_cfg` (gtlv.h:48-103) with such a store_tl().  `storeTl` is store_tl() as called by
`osmo_gtlv_put_tl()` (dst_data is the tail of the msgb).  `rewriteTl b at avail ti len` is store_tl() as called by
`osmo_gtlv_put_update_tl()`: `dst_data` is at the offset `at` in the msgb `b`; the msgb afterwards and the return value are
returned.  Simplification: a store_tl() that fails has not changed the msgb. -/
structure MovingCfg extends Cfg where
  rewriteTl : Msgb → (at_ : Nat) → (avail : Nat) → TagInst → (len : Nat) → Except Errno (Msgb × Nat)

/-- A store_tl() that just writes, as modelled in Gtlv.lean. -/
def Cfg.still (c : Cfg) : MovingCfg :=
  { c with
    rewriteTl := fun b at_ avail ti len =>
      match c.storeTl avail ti len with
      | .error e => .error e
      | .ok hdr => .ok ({ b with data := b.data.take at_ ++ hdr ++ b.data.drop (at_ + hdr.length) }, hdr.length) }

/-- `osmo_gtlv_put_update_tl()` (gtlv.c:274-284). -/
def putUpdateTlMv (cfg : MovingCfg) (p : Put) (b : Msgb) : Except Errno (Put × Msgb) :=
  match p.last with
  | none => .error .EMSGSIZE
  | some (ti, tl, v) =>
    match cfg.rewriteTl b tl (v - tl) ti (b.data.length - v) with
    | .error e => .error e
    | .ok (b, rc) => .ok ({ last := some (ti, tl, tl + rc) }, b)

/-- One write of the API documentation's example (gtlv.c:226-240): TL with length 0, then pieces of the value, each followed by a
length update. -/
def putTlvMv (cfg : MovingCfg) (p : Put) (b : Msgb) (ti : TagInst) (pieces : List (List UInt8)) : Res (Put × Msgb) :=
  match putTli cfg.toCfg p b ti 0 with
  | .error e => .err e
  | .ok pb => go pieces pb.1 pb.2
where
  /-- Octets, then an update. -/
  go : List (List UInt8) → Put → Msgb → Res (Put × Msgb)
    | [], p, b => .ok (p, b)
    | v :: vs, p, b =>
      match b.put v with
      | .ok b =>
        match putUpdateTlMv cfg p b with
        | .error e => .err e
        | .ok pb => go vs pb.1 pb.2
      | .err e _ => .err e
      | .abort => .abort
      | .ub => .ub
      | .diverge => .diverge

/-- The loop over the values of one member (gtlv_dec_enc.c:494-523). -/
def encodeValsMv (cfg : MovingCfg) (c : Coding A) : List (Val A) → Nat → Put → Msgb → Out (Put × Msgb)
  | [], _, p, b => .ok (p, b)
  | v :: vs, i, p, b =>
    let (p, b) := ignoreErr (putTli cfg.toCfg p b c.ti 0) p b
    if c.kind.exceeds i then .err .ENOTSUP (p, b)
    else
      match c.enc with
      | none => .ub
      | some enc =>
        match enc v b with
        | .ok b =>
          let (p, b) := ignoreErr (putUpdateTlMv cfg p b) p b
          encodeValsMv cfg c vs (i + 1) p b
        | .err e b => .err e (p, b)
        | .abort => .abort
        | .ub => .ub
        | .diverge => .diverge

/-- `osmo_gtlvs_encode()` (gtlv_dec_enc.c:462-526) for a non-NULL table; simplifications as in `encodeTable`. -/
def encodeTableMv (cfg : MovingCfg) : List (Coding A) → Struct A → Put → Msgb → Out (Put × Msgb)
  | [], _, p, b => .ok (p, b)
  | _ :: _, [], _, _ => .ub
  | c :: cs, s :: ss, p, b =>
    match membVals c.kind s with
    | none => .ub
    | some vs =>
      match encodeValsMv cfg c vs 0 p b with
      | .ok (p, b) => encodeTableMv cfg cs ss p b
      | .err e pb => .err e pb
      | .abort => .abort
      | .ub => .ub
      | .diverge => .diverge

/-- `osmo_gtlvs_encode()` with a fresh `struct osmo_gtlv_put`; `none` is a NULL table. -/
def gtlvsEncodeMv (cfg : MovingCfg) (slots : Struct A) (b : Msgb) : Option (List (Coding A)) → Out Msgb
  | none => .err .ENOTSUP b
  | some codings => dropPut (encodeTableMv cfg codings slots {} b)

/-- An entry with `.nested_ies = inner` (gtlv_dec_enc.c:185-212, 357-383, 505-515), see `nestedCoding`. -/
def nestedCodingMv (ti : TagInst) (kind : Kind) (cfg : MovingCfg) (ordered : Bool)
    (inner : List (Coding A)) : Coding A where
  ti := ti
  kind := kind
  dec := some fun p n =>
    (gtlvsDecode { cfg := cfg.toCfg, mem := p, srcLen := n } ordered (some inner)).bind fun s => .ok (.node s)
  enc := some fun v b =>
    match v with
    | .node s => gtlvsEncodeMv cfg s b (some inner)
    | .leaf _ => .ub

end Verif
