/-
Model of src/libosmo-gtlv/gtlv.c and include/osmocom/gtlv/gtlv.h: loading and storing TLVs.
-/
import Verif.Basic

namespace Verif

/-- `struct osmo_gtlv_tag_inst` (include/osmocom/gtlv/gtlv.h:35-39).  `instance_present` and
`instance` are one `Option`; the code ignores `instance` when it is not present
(gtlv.c:46-48), so nothing observable is lost. -/
structure TagInst where
  tag : Nat
  inst : Option Nat := none
  deriving DecidableEq, Repr

instance : Inhabited TagInst := ⟨{ tag := 0 }⟩

/-- `OSMO_CMP(a, b)` (libosmocore utils.h, trusted). -/
def osmoCmp (a b : Nat) : Int := if a < b then -1 else if a > b then 1 else 0

/-- `osmo_gtlv_tag_inst_cmp()` for non-NULL arguments (gtlv.c:39-47). -/
def TagInst.cmp (a b : TagInst) : Int :=
  let c := osmoCmp a.tag b.tag
  if c ≠ 0 then c
  else
    let c := osmoCmp (if a.inst.isSome then 1 else 0) (if b.inst.isSome then 1 else 0)
    if c ≠ 0 then c
    else
      match a.inst with
      | some i => osmoCmp i (b.inst.getD 0)
      | none => 0

/-- `osmo_gtlv_tag_inst_cmp()` (gtlv.c:30-48); `none` is a NULL pointer.  The shortcut for
identical pointers (line 33) is covered: equal pointers hold equal values. -/
def tagInstCmp : Option TagInst → Option TagInst → Int
  | none, none => 0
  | none, some _ => -1
  | some _, none => 1
  | some a, some b => a.cmp b

/-- What `cfg->load_tl()` returns in `gtlv->ti`, `gtlv->len`; `hdr` is `gtlv->val - src_data`,
the size of the TL part (gtlv.h:66-76). -/
structure LoadedTl where
  ti : TagInst
  len : Nat
  hdr : Nat
  deriving DecidableEq, Repr

/-- `struct osmo_gtlv_cfg` (gtlv.h:58-103).  `loadTl p n`: `p` is the memory readable from
`src_data` on and `n` is `src_data_len`.  `storeTl avail ti len` returns the TL octets that are
written to `dst_data`, or the error code. -/
structure Cfg where
  tlMin : Nat
  loadTl : List UInt8 → Nat → Res LoadedTl
  storeTl : Nat → TagInst → Nat → Except Errno (List UInt8)

/-- `osmo_t8l8v_cfg` (gtlv.c:286-313). -/
def t8l8v : Cfg where
  tlMin := 2
  loadTl p _n := do
    let t ← rd p 0
    let l ← rd p 1
    return { ti := { tag := t.toNat }, len := l.toNat, hdr := 2 }
  storeTl avail ti len :=
    if ti.tag > 255 then .error .EINVAL
    else if len > 255 then .error .EMSGSIZE
    else if avail < 2 then .error .ENOSPC
    else .ok (storeBE 1 ti.tag ++ storeBE 1 len)

/-- `osmo_t16l16v_cfg` (gtlv.c:315-342). -/
def t16l16v : Cfg where
  tlMin := 4
  loadTl p _n := do
    let t ← rdN p 0 2
    let l ← rdN p 2 2
    return { ti := { tag := loadBE t }, len := loadBE l, hdr := 4 }
  storeTl avail ti len :=
    if ti.tag > 65535 then .error .EINVAL
    else if len > 65535 then .error .EMSGSIZE
    else if avail < 4 then .error .ENOSPC
    else .ok (storeBE 2 ti.tag ++ storeBE 2 len)

/-- `struct osmo_gtlv_load` (gtlv.h:112-134).  `mem` is the memory that can be read from
`src.data` on (possibly more or less than `src.len` octets); `val` is an offset from `src.data`,
`none` is NULL. Addresses are unbounded naturals: a window that wraps around the end of the
address space is not modelled. -/
structure Load where
  cfg : Cfg
  mem : List UInt8
  srcLen : Nat
  ti : TagInst := default
  val : Option Nat := none
  len : Nat := 0

/-- Value octets the loader points at. -/
def Load.valueBytes (g : Load) : List UInt8 :=
  match g.val with
  | some v => (g.mem.drop v).take g.len
  | none => []

/-- Memory readable from `gtlv->val` on. -/
def Load.valueMem (g : Load) : List UInt8 :=
  match g.val with
  | some v => g.mem.drop v
  | none => []

/-- `osmo_gtlv_load_start()` (gtlv.h:137-140). -/
def Load.start (g : Load) : Load := { g with val := none }

/-- `next_tl_valid()` (gtlv.c:69-93): offset of the next IE and number of octets left. -/
def nextTlValid (g : Load) : Except Errno (Nat × Nat) :=
  let ieStart := match g.val with
    | none => 0
    | some v => v + g.len
  if ieStart > g.srcLen then .error .ENOSPC
  else
    let left := g.srcLen - ieStart
    if left ≠ 0 ∧ (left < g.cfg.tlMin ∨ left > g.srcLen) then .error .EBADMSG
    else .ok (ieStart, left)

/-- `osmo_gtlv_load_next()` (gtlv.c:125-155). When `load_tl()` itself fails, `gtlv->ti` has been
cleared (line 144); neither library configuration's `load_tl()` fails. -/
def loadNext (g : Load) : Out Load :=
  match nextTlValid g with
  | .error e => .err e g
  | .ok (ieStart, left) =>
    if left = 0 then .ok { g with val := none }
    else
      match g.cfg.loadTl (g.mem.drop ieStart) left with
      | .ok tl =>
        let g' := { g with ti := tl.ti, len := tl.len, val := some (ieStart + tl.hdr) }
        if ieStart + tl.hdr + tl.len > g.srcLen then .err .EBADMSG g' else .ok g'
      | .err e => .err e { g with ti := default }
      | .abort => .abort
      | .ub => .ub
      | .diverge => .diverge

/-- `osmo_gtlv_load_peek_tag()` (gtlv.c:165-189). -/
def peekTag (g : Load) : Res TagInst :=
  match nextTlValid g with
  | .error e => .err e
  | .ok (ieStart, left) =>
    if left = 0 then .err .ENOENT
    else
      match g.cfg.loadTl (g.mem.drop ieStart) left with
      | .ok tl => .ok tl.ti
      | .err _ => .err .EBADMSG
      | .abort => .abort
      | .ub => .ub
      | .diverge => .diverge

/-- The `for (;;)` loop of `osmo_gtlv_load_next_by_tag_inst()` on the local copy `work`
(gtlv.c:206-217), with at most `fuel` iterations. -/
def nextByTagLoop (ti : TagInst) : Nat → Load → Res Load
  | 0, _ => .diverge
  | fuel + 1, work =>
    match loadNext work with
    | .ok w =>
      match w.val with
      | none => .err .ENOENT
      | some _ => if w.ti.cmp ti = 0 then .ok w else nextByTagLoop ti fuel w
    | .err e _ => .err e
    | .abort => .abort
    | .ub => .ub
    | .diverge => .diverge

/-- `osmo_gtlv_load_next_by_tag_inst()` (gtlv.c:204-218): `*gtlv = work` only on success.
The loop gets more iterations than there are octets. -/
def nextByTagInst (g : Load) (ti : TagInst) : Out Load :=
  match nextByTagLoop ti (g.srcLen + 2) g with
  | .ok w => .ok w
  | .err e => .err e g
  | .abort => .abort
  | .ub => .ub
  | .diverge => .diverge

/-- `osmo_gtlv_load_next_by_tag()` (gtlv.c:198-202). -/
def nextByTag (g : Load) (tag : Nat) : Out Load := nextByTagInst g { tag := tag }

/-- `struct osmo_gtlv_put` (gtlv.h:147-161) without `dst` (passed separately): what was put last,
and the offsets of its TL and V in the msgb; `none` before the first put (NULL pointers). -/
structure Put where
  last : Option (TagInst × Nat × Nat) := none
  deriving DecidableEq, Repr

/-- `osmo_gtlv_put_tli()` (gtlv.c:253-268). -/
def putTli (cfg : Cfg) (_p : Put) (b : Msgb) (ti : TagInst) (len : Nat) :
    Except Errno (Put × Msgb) :=
  match cfg.storeTl b.tailroom ti len with
  | .error e => .error e
  | .ok tl =>
    .ok ({ last := some (ti, b.data.length, b.data.length + tl.length) },
         { b with data := b.data ++ tl })

/-- `osmo_gtlv_put_tl()` (gtlv.c:244-248). -/
def putTl (cfg : Cfg) (p : Put) (b : Msgb) (tag : Nat) (len : Nat) : Except Errno (Put × Msgb) :=
  putTli cfg p b { tag := tag } len

/-- `osmo_gtlv_put_update_tl()` (gtlv.c:274-284).  Before the first put, `last_val` and `last_tl`
are NULL, the computed length is an address and larger than any L field: -EMSGSIZE. -/
def putUpdateTl (cfg : Cfg) (p : Put) (b : Msgb) : Except Errno (Put × Msgb) :=
  match p.last with
  | none => .error .EMSGSIZE
  | some (ti, tl, v) =>
    match cfg.storeTl (v - tl) ti (b.data.length - v) with
    | .error e => .error e
    | .ok hdr =>
      .ok ({ last := some (ti, tl, tl + hdr.length) },
           { b with data := b.data.take tl ++ hdr ++ b.data.drop (tl + hdr.length) })

/-- The read loop of the API documentation (gtlv.c:101-113): call `osmo_gtlv_load_next()` until it
fails or reports the end, collecting tag and value octets; at most `fuel` calls. -/
def loadAllLoop : Nat → Load → List (TagInst × List UInt8) → Res (List (TagInst × List UInt8))
  | 0, _, _ => .diverge
  | fuel + 1, g, acc =>
    match loadNext g with
    | .ok g' =>
      match g'.val with
      | none => .ok acc.reverse
      | some _ => loadAllLoop fuel g' ((g'.ti, g'.valueBytes) :: acc)
    | .err e _ => .err e
    | .abort => .abort
    | .ub => .ub
    | .diverge => .diverge

/-- One write of the API documentation's example (gtlv.c:226-240): TL with length 0, value octets,
length update. -/
def putTlv (cfg : Cfg) (p : Put) (b : Msgb) (ti : TagInst) (v : List UInt8) : Res (Put × Msgb) :=
  match putTli cfg p b ti 0 with
  | .error e => .err e
  | .ok (p, b) =>
    match b.put v with
    | .ok b =>
      match putUpdateTl cfg p b with
      | .error e => .err e
      | .ok r => .ok r
    | .err e _ => .err e
    | .abort => .abort
    | .ub => .ub
    | .diverge => .diverge

/-- Write a sequence of IEs. -/
def putTlvs (cfg : Cfg) : Put → Msgb → List (TagInst × List UInt8) → Res (Put × Msgb)
  | p, b, [] => .ok (p, b)
  | p, b, (ti, v) :: rest =>
    match putTlv cfg p b ti v with
    | .ok (p, b) => putTlvs cfg p b rest
    | .err e => .err e
    | .abort => .abort
    | .ub => .ub
    | .diverge => .diverge

end Verif
