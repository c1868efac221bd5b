/-
Basic vocabulary of the model: octets, outcomes of C functions, big-endian loads and stores,
reads through a pointer, and message buffers.
-/
namespace Verif

/-- The error codes used by the modelled code (`-EINVAL` etc.; errno.h). -/
inductive Errno where
  | EINVAL | EBADMSG | ENOSPC | EMSGSIZE | ENOENT | ENOTSUP | EIO | EFAULT | ERANGE | EPERM
  | ENOLINK | ENOMEM
  deriving DecidableEq, Repr

/-- Outcome of a C function that computes a value: success, a negative return code, an aborted
process (failed `OSMO_ASSERT`, msgb overflow), undefined behaviour (a read outside the memory
that belongs to the object, use after free), or a loop that does not end. -/
inductive Res (α : Type u) where
  | ok (a : α)
  | err (e : Errno)
  | abort
  | ub
  | diverge
  deriving DecidableEq, Repr

namespace Res

/-- Sequencing: the first outcome that is not success is the outcome of the whole. -/
@[inline] def bind {α β} : Res α → (α → Res β) → Res β
  | ok a, f => f a
  | err e, _ => err e
  | abort, _ => abort
  | ub, _ => ub
  | diverge, _ => diverge

instance : Monad Res where
  pure := ok
  bind := Res.bind

/-- Returned normally with success or with an error code. -/
def Returns {α} : Res α → Prop
  | ok _ => True
  | err _ => True
  | _ => False

instance {α} (r : Res α) : Decidable r.Returns := by
  cases r <;> simp only [Returns] <;> infer_instance

end Res

/-- Outcome of a C function that mutates a state `σ`: like `Res`, but a function that returns a
negative code has still modified the state. -/
inductive Out (σ : Type u) where
  | ok (s : σ)
  | err (e : Errno) (s : σ)
  | abort
  | ub
  | diverge
  deriving DecidableEq, Repr

namespace Out

/-- Sequencing of state changing functions (`rc = f(); if (rc) return rc; rc = g(); ...`). -/
@[inline] def bind {σ} : Out σ → (σ → Out σ) → Out σ
  | ok s, f => f s
  | err e s, _ => err e s
  | abort, _ => abort
  | ub, _ => ub
  | diverge, _ => diverge

/-- Forget the final state of a failed call. -/
def toRes {σ} : Out σ → Res σ
  | ok s => .ok s
  | err e _ => .err e
  | abort => .abort
  | ub => .ub
  | diverge => .diverge

end Out

/-- Value of an octet string read as big-endian integer.
Models libosmocore `osmo_load16be`, `osmo_load32be`, `osmo_load64be`, `osmo_load32be_ext_2`
(trusted: osmocom/core/bit16gen.h, bit32gen.h, bit64gen.h), used e.g. in
src/libosmo-gtlv/gtlv.c:318-319 and src/libosmo-pfcp/pfcp_msg.c:308-318. -/
def loadBE (bs : List UInt8) : Nat := bs.foldl (fun a b => a * 256 + b.toNat) 0

/-- The low `n` octets of `v` in big-endian order.
Models libosmocore `osmo_store16be`, `osmo_store64be`, `osmo_store32be_ext`, `msgb_put_u8/16/32`
(trusted), used e.g. in src/libosmo-gtlv/gtlv.c:333-334 and src/libosmo-pfcp/pfcp_msg.c:188-193. -/
def storeBE : Nat → Nat → List UInt8
  | 0, _ => []
  | n + 1, v => UInt8.ofNat (v / 256 ^ n) :: storeBE n v

/-- Read one octet at index `i` of the memory `p` that is accessible from a pointer on;
reading past the end of the memory is undefined behaviour. -/
def rd (p : List UInt8) (i : Nat) : Res UInt8 :=
  match p[i]? with
  | some b => .ok b
  | none => .ub

/-- Read `n` octets starting at index `i` (memcpy, multi-octet load). -/
def rdN (p : List UInt8) (i n : Nat) : Res (List UInt8) :=
  if i + n ≤ p.length then .ok ((p.drop i).take n) else .ub

/-- A message buffer: capacity and octets put so far.  `tail` is `data.length`.
Models libosmocore `struct msgb` as allocated by `msgb_alloc_c(.., 2048, ..)`
(src/libosmo-pfcp/pfcp_endpoint.c:248); headroom is 0 as nothing is pushed in front. -/
structure Msgb where
  cap : Nat
  data : List UInt8
  deriving DecidableEq, Repr

namespace Msgb

/-- `msgb_tailroom()` (libosmocore, trusted). -/
def tailroom (b : Msgb) : Nat := b.cap - b.data.length

/-- `memcpy(msgb_put(msg, n), bs, n)`: append octets; `msgb_put()` aborts the process when the
tailroom does not suffice (libosmocore msgb.h: MSGB_ABORT; trusted). -/
def put (b : Msgb) (bs : List UInt8) : Out Msgb :=
  if b.data.length + bs.length ≤ b.cap then .ok { b with data := b.data ++ bs } else .abort

end Msgb

end Verif
