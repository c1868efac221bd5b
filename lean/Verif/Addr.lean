/-
Model of the loader on a machine with addresses (and `size_t`) of 64 bits: src/libosmo-gtlv/gtlv.c:69-218.

Gtlv.lean has offsets that are unbounded naturals.  Here the pointers of the code are addresses, and sums of an address and a
length wrap around at 2^64, as they do on the machines that the library runs on.  (The C standard does not define such sums.)
-/
import Verif.Gtlv

namespace Verif

/-- Octets of the address space. -/
def addrSpace : Nat := 2 ^ 64

/-- The address of the next IE, or of the first (gtlv.c:74-78). -/
def ieStartAt (base : Nat) (g : Load) : Nat :=
  match g.val with
  | none => base
  | some v => (base + v + g.len) % addrSpace

/-- `next_tl_valid()` (gtlv.c:69-93) with `src.data` at the address `base`; `gtlv->val` is `base` plus the offset in the state.
The start of the next IE is returned as offset from `base`. -/
def nextTlValidAt (base : Nat) (g : Load) : Except Errno (Nat × Nat) :=
  let ieStart := ieStartAt base g
  if ieStart < base ∨ ieStart > base + g.srcLen then .error .ENOSPC
  else
    let left := g.srcLen - (ieStart - base)
    if left ≠ 0 ∧ (left < g.cfg.tlMin ∨ left > g.srcLen) then .error .EBADMSG
    else .ok (ieStart - base, left)

/-- `osmo_gtlv_load_next()` (gtlv.c:125-155). -/
def loadNextAt (base : Nat) (g : Load) : Out Load :=
  match nextTlValidAt base g with
  | .error e => .err e g
  | .ok (ieStart, left) =>
    if left = 0 then .ok { g with val := none }
    else
      match g.cfg.loadTl (g.mem.drop ieStart) left with
      | .ok tl =>
        let g' := { g with ti := tl.ti, len := tl.len, val := some (ieStart + tl.hdr) }
        let ieEnd := (base + (ieStart + tl.hdr) + tl.len) % addrSpace
        if ieEnd < base ∨ ieEnd > base + g.srcLen then .err .EBADMSG g' else .ok g'
      | .err e => .err e { g with ti := default }
      | .abort => .abort
      | .ub => .ub
      | .diverge => .diverge

/-- The read loop of the API documentation (gtlv.c:101-113), at most `fuel` calls. -/
def loadAllAt (base : Nat) : Nat → Load → List (TagInst × List UInt8) → Res (List (TagInst × List UInt8))
  | 0, _, _ => .diverge
  | fuel + 1, g, acc =>
    match loadNextAt base g with
    | .ok g' =>
      match g'.val with
      | none => .ok acc.reverse
      | some _ => loadAllAt base fuel g' ((g'.ti, g'.valueBytes) :: acc)
    | .err e _ => .err e
    | .abort => .abort
    | .ub => .ub
    | .diverge => .diverge

/-- The loop of `osmo_gtlv_load_next_by_tag_inst()` (gtlv.c:206-217), at most `fuel` iterations. -/
def nextByTagAt (base : Nat) (ti : TagInst) : Nat → Load → Res Load
  | 0, _ => .diverge
  | fuel + 1, work =>
    match loadNextAt base work with
    | .ok w =>
      match w.val with
      | none => .err .ENOENT
      | some _ => if w.ti.cmp ti = 0 then .ok w else nextByTagAt base ti fuel w
    | .err e _ => .err e
    | .abort => .abort
    | .ub => .ub
    | .diverge => .diverge

end Verif
