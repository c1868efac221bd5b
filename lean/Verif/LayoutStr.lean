/-
Model of osmo_gtlvs_encode_to_str_buf() (src/libosmo-gtlv/gtlv_dec_enc.c:540-606) at the level of the memory of the decoded
struct: members are found by their offsets.  `Strs` abstracts from this: there, a member is a slot.
-/
import Verif.Layout
import Verif.Strs

namespace Verif

variable {A : Type}

/-- How an entry prints what is at an address (gtlv_dec_enc.c:587-599): `nested_ies`, or `enc_to_str_func` (`none` is NULL). -/
inductive MStrHow (A : Type) where
  | nested (f : Nat → Mem A → StrFn)
  | func (f : Option (Nat → Mem A → StrFn))

/-- The part of `struct osmo_gtlv_coding` (gtlv_dec_enc.h:76-178) that printing uses, with its offsets. -/
structure MStrCoding (A : Type) where
  place : Place
  how : MStrHow A

/-- Tag, kind and offsets, for the functions of `Layout`. -/
def Place.coding (p : Place) : MCoding A :=
  { ti := p.ti, kind := p.kind, ofs := p.ofs, pitch := p.pitch, flagOfs := p.flagOfs, countOfs := p.countOfs, dec := none, enc := none }

/-- Print element `i` (gtlv_dec_enc.c:585-599).  For nested IEs the offset from `decoded_struct` is passed on, in unsigned int. -/
def strElemM (c : MStrCoding A) (obj : Nat) (m : Mem A) (i : Nat) (sb : StrBuf) : Res StrBuf :=
  let memb := (c.place.coding (A := A)).elem i
  match c.how with
  | .nested f =>
    (sb.printf (lit "{")).bind fun sb => (sb.append (f (obj + memb) m)).bind fun sb => sb.printf (lit " }")
  | .func (some f) => (membof m obj memb).bind fun a => sb.append (f a m)
  | .func none => sb.printf (lit "(enc_to_str_func==NULL)")

/-- The loop over the elements of one member (gtlv_dec_enc.c:576-600): `n` are left, the next is element `i`; `true`:
`return -ENOTSUP`. -/
def strElemsM (c : MStrCoding A) (obj : Nat) (m : Mem A) : (n i : Nat) → StrBuf → Res (StrBuf × Bool)
  | 0, _, sb => .ok (sb, false)
  | n + 1, i, sb =>
    if c.place.kind.exceeds i then .ok (sb, true)
    else
      (sb.when (decide (i > 0)) (StrBuf.printf (lit ", "))).bind fun sb =>
      (strElemM c obj m i sb).bind fun sb => strElemsM c obj m n (i + 1) sb

/-- The loop over the table (gtlv_dec_enc.c:552-605). -/
def strTableM (names : ValueStrs) (obj : Nat) (m : Mem A) : List (MStrCoding A) → StrBuf → Res (CBuf × Except Errno Nat)
  | [], sb => .ok (sb.buf, .ok sb.needed)
  | c :: cs, sb =>
    ((c.place.coding (A := A)).filled m obj).bind fun n =>
    if n.getD 1 = 0 then strTableM names obj m cs sb
    else
      (sb.printf (lit " '" ++ valueStr names c.place.ti.tag ++ lit "'=")).bind fun sb =>
      (sb.when c.place.kind.isMulti (StrBuf.printf (lit "{ "))).bind fun sb =>
      (strElemsM c obj m (n.getD 1) 0 sb).bind fun (sb, stop) =>
      if stop then .ok (sb.buf, .error .ENOTSUP)
      else (sb.when c.place.kind.isMulti (StrBuf.printf (lit " }"))).bind fun sb => strTableM names obj m cs sb

/-- `osmo_gtlvs_encode_to_str_buf()` (gtlv_dec_enc.c:540-606), of the sub-struct at `obj`; the assertion is before the check for
NULL. -/
def gtlvsToStrM (names : ValueStrs) (obj : Nat) (m : Mem A) (t : Option (List (MStrCoding A))) : StrFn := fun buf =>
  (membof m 0 obj).bind fun _ =>
  match t with
  | none => .ok (buf, .error .ENOTSUP)
  | some cs => strTableM names obj m cs { buf := buf }

/-! ### Table entries -/

mutual
/-- As `MTy`, with the `enc_to_str_func` of an IE (`none` is NULL). -/
inductive PTy (A : Type) where
  | leaf (l : Leaf A) (str : Option (A → StrFn))
  | nested (size : Nat) (cfg : Cfg) (ordered : Bool) (t : PTab A)
/-- An array of `struct osmo_gtlv_coding` that can also print. -/
inductive PTab (A : Type) where
  | nil
  | cons (p : Place) (ty : PTy A) (rest : PTab A)
end

mutual
/-- ... without the functions that print. -/
def PTy.ty : PTy A → MTy A
  | .leaf l _ => .leaf l
  | .nested size cfg ordered t => .nested size cfg ordered t.tab
def PTab.tab : PTab A → MTab A
  | .nil => .nil
  | .cons p ty r => .cons p ty.ty r.tab
end

mutual
/-- What an entry does to print: `enc_to_str_func` reads the member; nested IEs are printed by the same function. -/
def PTy.howM [DecidableEq A] (names : ValueStrs) : PTy A → MStrHow A
  | .leaf l str => .func (str.map fun f a m buf => (l.load m a).bind fun v => f v buf)
  | .nested _ _ _ t => .nested fun a m => gtlvsToStrM names (a % 2 ^ 32) m (some (t.strEntries names))
/-- The array. -/
def PTab.strEntries [DecidableEq A] (names : ValueStrs) : PTab A → List (MStrCoding A)
  | .nil => []
  | .cons p ty r => { place := p, how := ty.howM names } :: r.strEntries names
end

end Verif
