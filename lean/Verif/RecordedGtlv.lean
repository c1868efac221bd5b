/-
The model against recorded executions of the code: tests/libosmo-gtlv/gtlv_test.c writes and reads lists of IEs, for the
two configurations of the library and two of its own; tests/libosmo-gtlv/gtlv_test.ok is what the program printed.  (Lists of
IEs and records below are extracted from these files by a script.)  Tests of the model, not theorems about the code.
-/
import Verif.Gtlv

namespace Verif.Recorded

/-! ### The configurations of gtlv_test.c -/

/-- `txlxv_load_tl()` (gtlv_test.c): T has one or two octets, L has zero, one or two. -/
def txlxvLoad (p : List UInt8) (n : Nat) : Res LoadedTl := do
  let b0 ← rd p 0
  let (tag, pos) ←
    if b0.toNat ≥ 128 then
      if 2 > n then Res.err .EINVAL
      else do
        let b1 ← rd p 1
        Res.ok (b1.toNat * 128 + b0.toNat % 128, 2)
    else Res.ok (b0.toNat, 1)
  if tag = 1002 then Res.ok { ti := { tag := tag }, len := 2, hdr := pos }
  else if tag = 123 then
    if pos + 2 > n then Res.err .EINVAL
    else do
      let l ← rdN p pos 2
      Res.ok { ti := { tag := tag }, len := loadBE l, hdr := pos + 2 }
  else if pos + 1 > n then Res.err .EINVAL
  else do
    let l ← rd p pos
    Res.ok { ti := { tag := tag }, len := l.toNat, hdr := pos + 1 }

/-- `txlxv_store_tl()` (gtlv_test.c).  (ERANGE is not among the codes of the model.) -/
def txlxvStore (avail : Nat) (ti : TagInst) (len : Nat) : Except Errno (List UInt8) :=
  let t := if ti.tag < 128 then storeBE 1 ti.tag else storeBE 1 (128 + ti.tag % 128) ++ storeBE 1 (ti.tag / 128)
  let l := if ti.tag = 1002 then [] else if ti.tag = 123 then storeBE 2 len else storeBE 1 len
  if avail < t.length then .error .ENOSPC
  else if ti.tag ≠ 1002 ∧ len ≥ 256 ^ l.length then .error .EMSGSIZE
  else if avail < t.length + l.length then .error .ENOSPC
  else .ok (t ++ l)

def txlxv : Cfg where
  tlMin := 1
  loadTl := txlxvLoad
  storeTl := txlxvStore

/-- `tliv_load_tl()` (gtlv_test.c): tags 5, 7 and 9 have an instance. -/
def tlivLoad (p : List UInt8) (n : Nat) : Res LoadedTl := do
  let t ← rd p 0
  let l ← rd p 1
  if t = 5 ∨ t = 7 ∨ t = 9 then
    if n < 3 then Res.err .ENOSPC
    else do
      let i ← rd p 2
      Res.ok { ti := { tag := t.toNat, inst := some i.toNat }, len := l.toNat, hdr := 3 }
  else Res.ok { ti := { tag := t.toNat }, len := l.toNat, hdr := 2 }

/-- `tliv_store_tl()` (gtlv_test.c). -/
def tlivStore (avail : Nat) (ti : TagInst) (len : Nat) : Except Errno (List UInt8) :=
  if ti.tag > 255 then .error .EINVAL
  else if len > 255 then .error .EMSGSIZE
  else if avail < 2 then .error .ENOSPC
  else if ti.tag = 5 ∨ ti.tag = 7 ∨ ti.tag = 9 then
    if avail < 3 then .error .ENOSPC
    else
      match ti.inst with
      | none => .error .EINVAL
      | some i => if i > 255 then .error .EINVAL else .ok (storeBE 1 ti.tag ++ storeBE 1 len ++ storeBE 1 i)
  else .ok (storeBE 1 ti.tag ++ storeBE 1 len)

def tliv : Cfg where
  tlMin := 2
  loadTl := tlivLoad
  storeTl := tlivStore

/-! ### The program -/

/-- A line that it prints. -/
inductive Line where
  | tlv (ti : TagInst) (v : List UInt8)
  | mismatch (ti : TagInst) (v : List UInt8)
  | peek (ti : TagInst)
  | noEntry
  | error
  deriving DecidableEq

/-- The loop of `test_tlv_dec()`. -/
def decodeLoop : Nat → Load → List Line
  | 0, _ => []
  | n + 1, g =>
    match loadNext g with
    | .ok g' => if g'.val.isNone then [.error] else .tlv g'.ti g'.valueBytes :: decodeLoop n g'
    | _ => [.error]

/-- The loop of `test_tlv_peek()`. -/
def peekLoop : Nat → Load → List Line
  | 0, _ => [.error]
  | n + 1, g =>
    match peekTag g with
    | .err .ENOENT => [.noEntry]
    | .ok ti =>
      match loadNext g with
      | .ok g' => .peek ti :: peekLoop n g'
      | _ => [.error]
    | _ => [.error]

/-- Look for the IE with the value (`test_tlv_dec_by_tag()`): the lines, and where the loader is then. -/
def lookFor (ti : TagInst) (v : List UInt8) : Nat → Load → List Line × Load
  | 0, g => ([.error], g)
  | n + 1, g =>
    match nextByTagInst g ti with
    | .ok g' =>
      if g'.val.isNone ∨ g'.ti ≠ ti then ([.error], g')
      else if g'.valueBytes = v then ([.tlv g'.ti g'.valueBytes], g')
      else
        let (ls, g'') := lookFor ti v n g'
        (.mismatch g'.ti g'.valueBytes :: ls, g'')
    | _ => ([.error], g)

/-- "decoding in reverse order". -/
def reverseLoop (g : Load) (ies : List (TagInst × List UInt8)) : List Line :=
  ies.reverse.flatMap fun (ti, v) => (lookFor ti v 20 g.start).1

/-- "decoding every second tag", and where the loader is then. -/
def secondLoop : List (TagInst × List UInt8) → Load → List Line × Load
  | _ :: (ti, v) :: rest, g =>
    let (ls, g') := lookFor ti v 20 g
    let (ls', g'') := secondLoop rest g'
    (ls ++ ls', g'')
  | _, g => ([], g)

/-- A list of IEs, and what is printed. -/
structure TestTlv where
  cfg : Cfg
  ies : List (TagInst × List UInt8)
  encoded : List UInt8
  decoded : List Line
  peeked : List Line
  reverse : List Line
  second : List Line

/-- `test_tlv()` prints that; "enforcing order" at the end gives -ENOENT. -/
def TestTlv.replayed (t : TestTlv) : Bool :=
  match putTlvs t.cfg {} ⟨1024, []⟩ t.ies with
  | .ok (_, b) =>
    let g : Load := { cfg := t.cfg, mem := b.data, srcLen := b.data.length }
    decide (b.data = t.encoded) && decide (decodeLoop t.ies.length g = t.decoded) && decide (peekLoop 20 g = t.peeked) &&
    decide (reverseLoop g t.ies = t.reverse) &&
    match secondLoop t.ies g with
    | (ls, g') =>
      decide (ls = t.second) &&
      match t.ies with
      | (ti, _) :: _ =>
        match nextByTagInst g' ti with
        | .err .ENOENT _ => true
        | _ => false
      | [] => false
  | _ => false

/-! ### Records -/

/-- `t8l8v_test1` (gtlv_test.c) and what was printed for it (gtlv_test.ok). -/
def t8l8v1 : TestTlv where
  cfg := t8l8v
  ies :=
    [(⟨0, none⟩, [0x23, 0x42]), (⟨255, none⟩, [0x23, 0x42]), (⟨1, none⟩, []),
     (⟨123, none⟩, List.replicate 255 0xff), (⟨101, none⟩, [0x11]), (⟨102, none⟩, [0x22, 0x22]),
     (⟨103, none⟩, [0x33, 0x33, 0x33])]
  encoded :=
    [0x00, 0x02, 0x23, 0x42, 0xff, 0x02, 0x23, 0x42, 0x01, 0x00, 0x7b] ++
    List.replicate 256 0xff ++
    [0x65, 0x01, 0x11, 0x66, 0x02, 0x22, 0x22, 0x67, 0x03, 0x33, 0x33, 0x33]
  decoded :=
    [.tlv ⟨0, none⟩ [0x23, 0x42], .tlv ⟨255, none⟩ [0x23, 0x42], .tlv ⟨1, none⟩ [],
     .tlv ⟨123, none⟩ (List.replicate 255 0xff), .tlv ⟨101, none⟩ [0x11], .tlv ⟨102, none⟩ [0x22, 0x22],
     .tlv ⟨103, none⟩ [0x33, 0x33, 0x33]]
  peeked :=
    [.peek ⟨0, none⟩, .peek ⟨255, none⟩, .peek ⟨1, none⟩, .peek ⟨123, none⟩, .peek ⟨101, none⟩, .peek ⟨102, none⟩,
     .peek ⟨103, none⟩, .noEntry]
  reverse :=
    [.tlv ⟨103, none⟩ [0x33, 0x33, 0x33], .tlv ⟨102, none⟩ [0x22, 0x22], .tlv ⟨101, none⟩ [0x11],
     .tlv ⟨123, none⟩ (List.replicate 255 0xff), .tlv ⟨1, none⟩ [], .tlv ⟨255, none⟩ [0x23, 0x42],
     .tlv ⟨0, none⟩ [0x23, 0x42]]
  second :=
    [.tlv ⟨255, none⟩ [0x23, 0x42], .tlv ⟨123, none⟩ (List.replicate 255 0xff), .tlv ⟨102, none⟩ [0x22, 0x22]]

/-- `t8l8v_test_multi` (gtlv_test.c) and what was printed for it (gtlv_test.ok). -/
def t8l8vMulti : TestTlv where
  cfg := t8l8v
  ies :=
    [(⟨42, none⟩, [0x42]), (⟨2, none⟩, [0x01, 0x01]), (⟨2, none⟩, [0x22, 0x22]), (⟨3, none⟩, [0x11]),
     (⟨3, none⟩, [0x22, 0x22]), (⟨3, none⟩, [0x33, 0x33, 0x33]), (⟨23, none⟩, [0x23]),
     (⟨42, none⟩, [0x66, 0x6f, 0x72, 0x74, 0x79, 0x74, 0x77, 0x6f]),
     (⟨23, none⟩, [0x74, 0x77, 0x65, 0x6e, 0x74, 0x79, 0x74, 0x68, 0x72, 0x65, 0x65])]
  encoded :=
    [0x2a, 0x01, 0x42, 0x02, 0x02, 0x01, 0x01, 0x02, 0x02, 0x22, 0x22, 0x03, 0x01, 0x11, 0x03, 0x02, 0x22, 0x22,
     0x03, 0x03, 0x33, 0x33, 0x33, 0x17, 0x01, 0x23, 0x2a, 0x08, 0x66, 0x6f, 0x72, 0x74, 0x79, 0x74, 0x77, 0x6f,
     0x17, 0x0b, 0x74, 0x77, 0x65, 0x6e, 0x74, 0x79, 0x74, 0x68, 0x72, 0x65, 0x65]
  decoded :=
    [.tlv ⟨42, none⟩ [0x42], .tlv ⟨2, none⟩ [0x01, 0x01], .tlv ⟨2, none⟩ [0x22, 0x22], .tlv ⟨3, none⟩ [0x11],
     .tlv ⟨3, none⟩ [0x22, 0x22], .tlv ⟨3, none⟩ [0x33, 0x33, 0x33], .tlv ⟨23, none⟩ [0x23],
     .tlv ⟨42, none⟩ [0x66, 0x6f, 0x72, 0x74, 0x79, 0x74, 0x77, 0x6f],
     .tlv ⟨23, none⟩ [0x74, 0x77, 0x65, 0x6e, 0x74, 0x79, 0x74, 0x68, 0x72, 0x65, 0x65]]
  peeked :=
    [.peek ⟨42, none⟩, .peek ⟨2, none⟩, .peek ⟨2, none⟩, .peek ⟨3, none⟩, .peek ⟨3, none⟩, .peek ⟨3, none⟩,
     .peek ⟨23, none⟩, .peek ⟨42, none⟩, .peek ⟨23, none⟩, .noEntry]
  reverse :=
    [.mismatch ⟨23, none⟩ [0x23],
     .tlv ⟨23, none⟩ [0x74, 0x77, 0x65, 0x6e, 0x74, 0x79, 0x74, 0x68, 0x72, 0x65, 0x65],
     .mismatch ⟨42, none⟩ [0x42], .tlv ⟨42, none⟩ [0x66, 0x6f, 0x72, 0x74, 0x79, 0x74, 0x77, 0x6f],
     .tlv ⟨23, none⟩ [0x23], .mismatch ⟨3, none⟩ [0x11], .mismatch ⟨3, none⟩ [0x22, 0x22],
     .tlv ⟨3, none⟩ [0x33, 0x33, 0x33], .mismatch ⟨3, none⟩ [0x11], .tlv ⟨3, none⟩ [0x22, 0x22],
     .tlv ⟨3, none⟩ [0x11], .mismatch ⟨2, none⟩ [0x01, 0x01], .tlv ⟨2, none⟩ [0x22, 0x22],
     .tlv ⟨2, none⟩ [0x01, 0x01], .tlv ⟨42, none⟩ [0x42]]
  second :=
    [.tlv ⟨2, none⟩ [0x01, 0x01], .tlv ⟨3, none⟩ [0x11], .mismatch ⟨3, none⟩ [0x22, 0x22],
     .tlv ⟨3, none⟩ [0x33, 0x33, 0x33], .tlv ⟨42, none⟩ [0x66, 0x6f, 0x72, 0x74, 0x79, 0x74, 0x77, 0x6f]]

/-- `t16l16v_test1` (gtlv_test.c) and what was printed for it (gtlv_test.ok). -/
def t16l16v1 : TestTlv where
  cfg := t16l16v
  ies :=
    [(⟨0, none⟩, [0x23, 0x42]), (⟨65535, none⟩, [0x23, 0x42]), (⟨1, none⟩, []),
     (⟨123, none⟩, List.replicate 256 0x00), (⟨1001, none⟩, [0x11]), (⟨1002, none⟩, [0x22, 0x22]),
     (⟨1003, none⟩, [0x33, 0x33, 0x33])]
  encoded :=
    [0x00, 0x00, 0x00, 0x02, 0x23, 0x42, 0xff, 0xff, 0x00, 0x02, 0x23, 0x42, 0x00, 0x01, 0x00, 0x00, 0x00, 0x7b,
     0x01] ++
    List.replicate 257 0x00 ++
    [0x03, 0xe9, 0x00, 0x01, 0x11, 0x03, 0xea, 0x00, 0x02, 0x22, 0x22, 0x03, 0xeb, 0x00, 0x03, 0x33, 0x33, 0x33]
  decoded :=
    [.tlv ⟨0, none⟩ [0x23, 0x42], .tlv ⟨65535, none⟩ [0x23, 0x42], .tlv ⟨1, none⟩ [],
     .tlv ⟨123, none⟩ (List.replicate 256 0x00), .tlv ⟨1001, none⟩ [0x11], .tlv ⟨1002, none⟩ [0x22, 0x22],
     .tlv ⟨1003, none⟩ [0x33, 0x33, 0x33]]
  peeked :=
    [.peek ⟨0, none⟩, .peek ⟨65535, none⟩, .peek ⟨1, none⟩, .peek ⟨123, none⟩, .peek ⟨1001, none⟩,
     .peek ⟨1002, none⟩, .peek ⟨1003, none⟩, .noEntry]
  reverse :=
    [.tlv ⟨1003, none⟩ [0x33, 0x33, 0x33], .tlv ⟨1002, none⟩ [0x22, 0x22], .tlv ⟨1001, none⟩ [0x11],
     .tlv ⟨123, none⟩ (List.replicate 256 0x00), .tlv ⟨1, none⟩ [], .tlv ⟨65535, none⟩ [0x23, 0x42],
     .tlv ⟨0, none⟩ [0x23, 0x42]]
  second :=
    [.tlv ⟨65535, none⟩ [0x23, 0x42], .tlv ⟨123, none⟩ (List.replicate 256 0x00), .tlv ⟨1002, none⟩ [0x22, 0x22]]

/-- `t16l16v_test_multi` (gtlv_test.c) and what was printed for it (gtlv_test.ok). -/
def t16l16vMulti : TestTlv where
  cfg := t16l16v
  ies :=
    [(⟨1042, none⟩, [0x42]), (⟨102, none⟩, [0x01, 0x01]), (⟨102, none⟩, [0x22, 0x22]), (⟨103, none⟩, [0x11]),
     (⟨103, none⟩, [0x22, 0x22]), (⟨103, none⟩, [0x33, 0x33, 0x33]), (⟨1023, none⟩, [0x23]),
     (⟨1042, none⟩, [0x66, 0x6f, 0x72, 0x74, 0x79, 0x74, 0x77, 0x6f]),
     (⟨1023, none⟩, [0x74, 0x77, 0x65, 0x6e, 0x74, 0x79, 0x74, 0x68, 0x72, 0x65, 0x65])]
  encoded :=
    [0x04, 0x12, 0x00, 0x01, 0x42, 0x00, 0x66, 0x00, 0x02, 0x01, 0x01, 0x00, 0x66, 0x00, 0x02, 0x22, 0x22, 0x00,
     0x67, 0x00, 0x01, 0x11, 0x00, 0x67, 0x00, 0x02, 0x22, 0x22, 0x00, 0x67, 0x00, 0x03, 0x33, 0x33, 0x33, 0x03,
     0xff, 0x00, 0x01, 0x23, 0x04, 0x12, 0x00, 0x08, 0x66, 0x6f, 0x72, 0x74, 0x79, 0x74, 0x77, 0x6f, 0x03, 0xff,
     0x00, 0x0b, 0x74, 0x77, 0x65, 0x6e, 0x74, 0x79, 0x74, 0x68, 0x72, 0x65, 0x65]
  decoded :=
    [.tlv ⟨1042, none⟩ [0x42], .tlv ⟨102, none⟩ [0x01, 0x01], .tlv ⟨102, none⟩ [0x22, 0x22],
     .tlv ⟨103, none⟩ [0x11], .tlv ⟨103, none⟩ [0x22, 0x22], .tlv ⟨103, none⟩ [0x33, 0x33, 0x33],
     .tlv ⟨1023, none⟩ [0x23], .tlv ⟨1042, none⟩ [0x66, 0x6f, 0x72, 0x74, 0x79, 0x74, 0x77, 0x6f],
     .tlv ⟨1023, none⟩ [0x74, 0x77, 0x65, 0x6e, 0x74, 0x79, 0x74, 0x68, 0x72, 0x65, 0x65]]
  peeked :=
    [.peek ⟨1042, none⟩, .peek ⟨102, none⟩, .peek ⟨102, none⟩, .peek ⟨103, none⟩, .peek ⟨103, none⟩,
     .peek ⟨103, none⟩, .peek ⟨1023, none⟩, .peek ⟨1042, none⟩, .peek ⟨1023, none⟩, .noEntry]
  reverse :=
    [.mismatch ⟨1023, none⟩ [0x23],
     .tlv ⟨1023, none⟩ [0x74, 0x77, 0x65, 0x6e, 0x74, 0x79, 0x74, 0x68, 0x72, 0x65, 0x65],
     .mismatch ⟨1042, none⟩ [0x42], .tlv ⟨1042, none⟩ [0x66, 0x6f, 0x72, 0x74, 0x79, 0x74, 0x77, 0x6f],
     .tlv ⟨1023, none⟩ [0x23], .mismatch ⟨103, none⟩ [0x11], .mismatch ⟨103, none⟩ [0x22, 0x22],
     .tlv ⟨103, none⟩ [0x33, 0x33, 0x33], .mismatch ⟨103, none⟩ [0x11], .tlv ⟨103, none⟩ [0x22, 0x22],
     .tlv ⟨103, none⟩ [0x11], .mismatch ⟨102, none⟩ [0x01, 0x01], .tlv ⟨102, none⟩ [0x22, 0x22],
     .tlv ⟨102, none⟩ [0x01, 0x01], .tlv ⟨1042, none⟩ [0x42]]
  second :=
    [.tlv ⟨102, none⟩ [0x01, 0x01], .tlv ⟨103, none⟩ [0x11], .mismatch ⟨103, none⟩ [0x22, 0x22],
     .tlv ⟨103, none⟩ [0x33, 0x33, 0x33], .tlv ⟨1042, none⟩ [0x66, 0x6f, 0x72, 0x74, 0x79, 0x74, 0x77, 0x6f]]

/-- `txlxv_test1` (gtlv_test.c) and what was printed for it (gtlv_test.ok). -/
def txlxv1 : TestTlv where
  cfg := txlxv
  ies :=
    [(⟨0, none⟩, [0x23, 0x42]), (⟨127, none⟩, [0x23, 0x42]), (⟨128, none⟩, [0x23, 0x42]),
     (⟨32767, none⟩, [0x23, 0x42]), (⟨1, none⟩, []), (⟨123, none⟩, List.replicate 256 0x00),
     (⟨1002, none⟩, [0x22, 0x22]), (⟨1003, none⟩, [0x33, 0x33, 0x33])]
  encoded :=
    [0x00, 0x02, 0x23, 0x42, 0x7f, 0x02, 0x23, 0x42, 0x80, 0x01, 0x02, 0x23, 0x42, 0xff, 0xff, 0x02, 0x23, 0x42,
     0x01, 0x00, 0x7b, 0x01] ++
    List.replicate 257 0x00 ++
    [0xea, 0x07, 0x22, 0x22, 0xeb, 0x07, 0x03, 0x33, 0x33, 0x33]
  decoded :=
    [.tlv ⟨0, none⟩ [0x23, 0x42], .tlv ⟨127, none⟩ [0x23, 0x42], .tlv ⟨128, none⟩ [0x23, 0x42],
     .tlv ⟨32767, none⟩ [0x23, 0x42], .tlv ⟨1, none⟩ [], .tlv ⟨123, none⟩ (List.replicate 256 0x00),
     .tlv ⟨1002, none⟩ [0x22, 0x22], .tlv ⟨1003, none⟩ [0x33, 0x33, 0x33]]
  peeked :=
    [.peek ⟨0, none⟩, .peek ⟨127, none⟩, .peek ⟨128, none⟩, .peek ⟨32767, none⟩, .peek ⟨1, none⟩,
     .peek ⟨123, none⟩, .peek ⟨1002, none⟩, .peek ⟨1003, none⟩, .noEntry]
  reverse :=
    [.tlv ⟨1003, none⟩ [0x33, 0x33, 0x33], .tlv ⟨1002, none⟩ [0x22, 0x22],
     .tlv ⟨123, none⟩ (List.replicate 256 0x00), .tlv ⟨1, none⟩ [], .tlv ⟨32767, none⟩ [0x23, 0x42],
     .tlv ⟨128, none⟩ [0x23, 0x42], .tlv ⟨127, none⟩ [0x23, 0x42], .tlv ⟨0, none⟩ [0x23, 0x42]]
  second :=
    [.tlv ⟨127, none⟩ [0x23, 0x42], .tlv ⟨32767, none⟩ [0x23, 0x42], .tlv ⟨123, none⟩ (List.replicate 256 0x00),
     .tlv ⟨1003, none⟩ [0x33, 0x33, 0x33]]

/-- `txlxv_test_multi` (gtlv_test.c) and what was printed for it (gtlv_test.ok). -/
def txlxvMulti : TestTlv where
  cfg := txlxv
  ies :=
    [(⟨1042, none⟩, [0x42]), (⟨1002, none⟩, [0x01, 0x01]), (⟨1002, none⟩, [0x22, 0x22]), (⟨103, none⟩, [0x11]),
     (⟨103, none⟩, [0x22, 0x22]), (⟨103, none⟩, [0x33, 0x33, 0x33]), (⟨1023, none⟩, [0x23]),
     (⟨1042, none⟩, [0x66, 0x6f, 0x72, 0x74, 0x79, 0x74, 0x77, 0x6f]),
     (⟨1023, none⟩, [0x74, 0x77, 0x65, 0x6e, 0x74, 0x79, 0x74, 0x68, 0x72, 0x65, 0x65])]
  encoded :=
    [0x92, 0x08, 0x01, 0x42, 0xea, 0x07, 0x01, 0x01, 0xea, 0x07, 0x22, 0x22, 0x67, 0x01, 0x11, 0x67, 0x02, 0x22,
     0x22, 0x67, 0x03, 0x33, 0x33, 0x33, 0xff, 0x07, 0x01, 0x23, 0x92, 0x08, 0x08, 0x66, 0x6f, 0x72, 0x74, 0x79,
     0x74, 0x77, 0x6f, 0xff, 0x07, 0x0b, 0x74, 0x77, 0x65, 0x6e, 0x74, 0x79, 0x74, 0x68, 0x72, 0x65, 0x65]
  decoded :=
    [.tlv ⟨1042, none⟩ [0x42], .tlv ⟨1002, none⟩ [0x01, 0x01], .tlv ⟨1002, none⟩ [0x22, 0x22],
     .tlv ⟨103, none⟩ [0x11], .tlv ⟨103, none⟩ [0x22, 0x22], .tlv ⟨103, none⟩ [0x33, 0x33, 0x33],
     .tlv ⟨1023, none⟩ [0x23], .tlv ⟨1042, none⟩ [0x66, 0x6f, 0x72, 0x74, 0x79, 0x74, 0x77, 0x6f],
     .tlv ⟨1023, none⟩ [0x74, 0x77, 0x65, 0x6e, 0x74, 0x79, 0x74, 0x68, 0x72, 0x65, 0x65]]
  peeked :=
    [.peek ⟨1042, none⟩, .peek ⟨1002, none⟩, .peek ⟨1002, none⟩, .peek ⟨103, none⟩, .peek ⟨103, none⟩,
     .peek ⟨103, none⟩, .peek ⟨1023, none⟩, .peek ⟨1042, none⟩, .peek ⟨1023, none⟩, .noEntry]
  reverse :=
    [.mismatch ⟨1023, none⟩ [0x23],
     .tlv ⟨1023, none⟩ [0x74, 0x77, 0x65, 0x6e, 0x74, 0x79, 0x74, 0x68, 0x72, 0x65, 0x65],
     .mismatch ⟨1042, none⟩ [0x42], .tlv ⟨1042, none⟩ [0x66, 0x6f, 0x72, 0x74, 0x79, 0x74, 0x77, 0x6f],
     .tlv ⟨1023, none⟩ [0x23], .mismatch ⟨103, none⟩ [0x11], .mismatch ⟨103, none⟩ [0x22, 0x22],
     .tlv ⟨103, none⟩ [0x33, 0x33, 0x33], .mismatch ⟨103, none⟩ [0x11], .tlv ⟨103, none⟩ [0x22, 0x22],
     .tlv ⟨103, none⟩ [0x11], .mismatch ⟨1002, none⟩ [0x01, 0x01], .tlv ⟨1002, none⟩ [0x22, 0x22],
     .tlv ⟨1002, none⟩ [0x01, 0x01], .tlv ⟨1042, none⟩ [0x42]]
  second :=
    [.tlv ⟨1002, none⟩ [0x01, 0x01], .tlv ⟨103, none⟩ [0x11], .mismatch ⟨103, none⟩ [0x22, 0x22],
     .tlv ⟨103, none⟩ [0x33, 0x33, 0x33], .tlv ⟨1042, none⟩ [0x66, 0x6f, 0x72, 0x74, 0x79, 0x74, 0x77, 0x6f]]

/-- `tliv_test1` (gtlv_test.c) and what was printed for it (gtlv_test.ok). -/
def tliv1 : TestTlv where
  cfg := tliv
  ies :=
    [(⟨1, none⟩, [0x00, 0x02]), (⟨5, some 1⟩, [0x00, 0x17]), (⟨5, some 2⟩, [0x00, 0x18]),
     (⟨5, some 3⟩, [0x00, 0x19]), (⟨6, none⟩, [0x00, 0x1a]), (⟨7, some 1⟩, [0x00, 0x1b]),
     (⟨9, some 1⟩, [0x00, 0x1c])]
  encoded :=
    [0x01, 0x02, 0x00, 0x02, 0x05, 0x02, 0x01, 0x00, 0x17, 0x05, 0x02, 0x02, 0x00, 0x18, 0x05, 0x02, 0x03, 0x00,
     0x19, 0x06, 0x02, 0x00, 0x1a, 0x07, 0x02, 0x01, 0x00, 0x1b, 0x09, 0x02, 0x01, 0x00, 0x1c]
  decoded :=
    [.tlv ⟨1, none⟩ [0x00, 0x02], .tlv ⟨5, some 1⟩ [0x00, 0x17], .tlv ⟨5, some 2⟩ [0x00, 0x18],
     .tlv ⟨5, some 3⟩ [0x00, 0x19], .tlv ⟨6, none⟩ [0x00, 0x1a], .tlv ⟨7, some 1⟩ [0x00, 0x1b],
     .tlv ⟨9, some 1⟩ [0x00, 0x1c]]
  peeked :=
    [.peek ⟨1, none⟩, .peek ⟨5, some 1⟩, .peek ⟨5, some 2⟩, .peek ⟨5, some 3⟩, .peek ⟨6, none⟩, .peek ⟨7, some 1⟩,
     .peek ⟨9, some 1⟩, .noEntry]
  reverse :=
    [.tlv ⟨9, some 1⟩ [0x00, 0x1c], .tlv ⟨7, some 1⟩ [0x00, 0x1b], .tlv ⟨6, none⟩ [0x00, 0x1a],
     .tlv ⟨5, some 3⟩ [0x00, 0x19], .tlv ⟨5, some 2⟩ [0x00, 0x18], .tlv ⟨5, some 1⟩ [0x00, 0x17],
     .tlv ⟨1, none⟩ [0x00, 0x02]]
  second :=
    [.tlv ⟨5, some 1⟩ [0x00, 0x17], .tlv ⟨5, some 3⟩ [0x00, 0x19], .tlv ⟨7, some 1⟩ [0x00, 0x1b]]

/-- The records of gtlv_test.ok. -/
def gtlvTest : List TestTlv := [t8l8v1, t8l8vMulti, t16l16v1, t16l16vMulti, txlxv1, txlxvMulti, tliv1]

/-- The model prints what the code printed. -/
example : (gtlvTest.all fun t => t.replayed) = true := by decide +kernel

end Verif.Recorded
