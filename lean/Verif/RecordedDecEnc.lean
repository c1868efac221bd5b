/-
The model against recorded executions of the code: tests/libosmo-gtlv/gtlv_dec_enc_test.c, test_gtlv_gen/gtlv_gen_test.c and
test_tliv/tliv_test.c print structs, encode them, print the octets, decode them again and print the outcome; the *.ok files
are what was printed.  The coding tables of the latter two are those that the model of gtlv_gen.c makes of the definitions in
gen__myproto_ies_auto.c.  (Records are extracted from the files by a script.)  Tests of the model, not theorems about the code.
-/
import Verif.Strs
import Verif.Gen

namespace Verif.Recorded

/-! ### IEs of the test programs -/

/-- The values of IEs. -/
inductive TVal where
  | num (n : Nat)
  | str (s : Text)
  | baz (n : Nat) (b : Bool)
  | rep (n : Nat) (b : Bool) (e : Nat)
  | big (n : Nat)
  | pair (a : Nat) (b : Bool)
  deriving DecidableEq

/-- Their functions: `dec_u16()`, `enc_u16()`, `enc_to_str_u16()`, and so on (gtlv_dec_enc_test.c, myproto_ies_custom.c);
`pair` are those for bar of test_tliv/myproto_ies_custom.c. -/
inductive TFn where
  | u16
  | bar
  | baz
  | rep
  | u64
  | pair
  deriving DecidableEq

def TFn.dec : TFn → List UInt8 → Nat → Res TVal
  | .u16, p, n => if n ≠ 2 then .err .EINVAL else (rdN p 0 2).bind fun l => .ok (.num (loadBE l))
  | .bar, p, n => if n > 22 then .err .EINVAL else (rdN p 0 n).bind fun l => .ok (.str (l.takeWhile (· ≠ 0)))
  | .baz, p, n =>
    if n ≠ 2 then .err .EINVAL
    else (rdN p 0 2).bind fun l => .ok (.baz (loadBE l % 0x8000) (decide (loadBE l ≥ 0x8000)))
  | .rep, p, n =>
    if n ≠ 3 then .err .EINVAL
    else
      (rdN p 0 2).bind fun l => (rd p 2).bind fun x =>
      .ok (.rep (loadBE l) (decide (x.toNat ≥ 0x80)) (x.toNat % 0x80))
  | .u64, p, n => if n ≠ 8 then .err .EINVAL else (rdN p 0 8).bind fun l => .ok (.big (loadBE l))
  | .pair, p, n =>
    if n < 2 then .err .EINVAL else (rd p 0).bind fun a => (rd p 1).bind fun b => .ok (.pair a.toNat (decide (b = 1)))

def TFn.enc : TFn → TVal → Msgb → Out Msgb
  | .u16, .num n, b => if n > 0x7fff then .err .EINVAL b else b.put (storeBE 2 n)
  | .bar, .str s, b => b.put s
  | .baz, .baz n f, b => if n > 0x7fff then .err .EINVAL b else b.put (storeBE 2 (n + if f then 0x8000 else 0))
  | .rep, .rep n f e, b => (b.put (storeBE 2 n)).bind fun b => b.put (storeBE 1 (e % 0x80 + if f then 0x80 else 0))
  | .u64, .big n, b => b.put (storeBE 8 n)
  | .pair, .pair a f, b => (b.put (storeBE 1 a)).bind fun b => b.put (storeBE 1 (if f then 1 else 0))
  | _, _, _ => .ub

def boolText (b : Bool) : Text := if b then lit "true" else lit "false"
def repeatEnumNames : ValueStrs := [(0, "R_A"), (1, "R_B"), (2, "R_C")]

def TVal.text : TVal → Text
  | .num n => Verif.dec n
  | .str s => lit "\"" ++ s ++ lit "\""
  | .baz n b => lit "{" ++ Verif.dec n ++ lit "," ++ boolText b ++ lit "}"
  | .rep n b e => lit "{" ++ Verif.dec n ++ lit "," ++ boolText b ++ lit "," ++ valueStr repeatEnumNames e ++ lit "}"
  | .big n => lit "0x" ++ hex n
  | .pair a b => Verif.dec a ++ lit "," ++ boolText b

/-- A coding table. -/
inductive TTab where
  | nil
  | func (ti : TagInst) (kind : Kind) (f : TFn) (rest : TTab)
  | nested (ti : TagInst) (kind : Kind) (array : TTab) (rest : TTab)

/-- As `struct osmo_gtlv_coding[]`; `nested_ies_ordered` is not set. -/
def TTab.codings (cfg : Cfg) (ordered : Bool) : TTab → List (Coding TVal)
  | .nil => []
  | .func ti k f r => leafCoding ti k f.dec f.enc :: r.codings cfg ordered
  | .nested ti k a r => nestedCoding ti k cfg ordered (a.codings cfg ordered) :: r.codings cfg ordered

def TTab.strCodings (names : ValueStrs) : TTab → List (StrCoding TVal)
  | .nil => []
  | .func ti k _ r =>
    { tag := ti.tag
      kind := k
      how := .func (some fun | .leaf v => snprintf v.text | .node _ => fun _ => .ub) } :: r.strCodings names
  | .nested ti k a r =>
    { tag := ti.tag
      kind := k
      how := .nested fun
        | .node s => gtlvsToStr names s (some (a.strCodings names))
        | .leaf _ => fun _ => .ub } :: r.strCodings names

/-- The string that is returned on the heap (`OSMO_NAME_C_IMPL()` with 256 octets). -/
def heapText (f : StrFn) : Option Text :=
  match nameC (fun n => List.replicate n 0xaa) 256 f with
  | .ok mem => some (mem.takeWhile (· ≠ 0))
  | _ => none

/-! ### gtlv_dec_enc_test.c -/

def tagNames : ValueStrs := [(1, "FOO"), (2, "BAR"), (3, "BAZ"), (4, "REPEAT_INT"), (5, "REPEAT_STRUCT"), (6, "NEST")]

/-- `nested_inner_msg_ies` -/
def innerIes : TTab := .func ⟨1, none⟩ .mand .u16 <| .func ⟨2, none⟩ .mand .bar <| .func ⟨3, none⟩ .mand .baz .nil

/-- `msg_ie_coding` -/
def msgIeCoding : TTab :=
  .func ⟨1, none⟩ .mand .u16 <|
  .func ⟨2, none⟩ .mand .bar <|
  .func ⟨3, none⟩ .opt .baz <|
  .func ⟨4, none⟩ (.multi 3 0) .u16 <|
  .func ⟨4, none⟩ (.multi 2 0) .u16 <|
  .func ⟨4, none⟩ .opt .u16 <|
  .func ⟨5, none⟩ (.multi 32 0) .rep <|
  .nested ⟨6, none⟩ .opt innerIes .nil

/-- `msg_ie_coding2`: the same in a different order. -/
def msgIeCoding2 : TTab :=
  .func ⟨1, none⟩ .mand .u16 <|
  .func ⟨2, none⟩ .mand .bar <|
  .func ⟨3, none⟩ .opt .baz <|
  .func ⟨4, none⟩ (.multi 3 0) .u16 <|
  .func ⟨5, none⟩ (.multi 32 0) .rep <|
  .func ⟨4, none⟩ (.multi 2 0) .u16 <|
  .nested ⟨6, none⟩ .opt innerIes <|
  .func ⟨4, none⟩ .opt .u16 .nil

/-- `struct decoded_msg` -/
structure DecodedMsg where
  foo : Nat
  bar : String
  baz : List TVal := []
  repeatInt : List Nat := []
  repeatInt2 : List Nat := []
  repeatInt3 : List Nat := []
  repeatStruct : List TVal := []
  nest : List (Nat × String × TVal) := []

def leaves (vs : List TVal) : List (Val TVal) := vs.map .leaf
def nums (ns : List Nat) : List (Val TVal) := ns.map fun n => .leaf (.num n)
def nestVal (x : Nat × String × TVal) : Val TVal := .node [nums [x.1], leaves [.str (lit x.2.1)], leaves [x.2.2]]

/-- Its members, by the entries of `msg_ie_coding`; of `msg_ie_coding2`. -/
def DecodedMsg.struct (m : DecodedMsg) : Struct TVal :=
  [nums [m.foo], leaves [.str (lit m.bar)], leaves m.baz, nums m.repeatInt, nums m.repeatInt2, nums m.repeatInt3,
   leaves m.repeatStruct, m.nest.map nestVal]
def DecodedMsg.struct2 (m : DecodedMsg) : Struct TVal :=
  [nums [m.foo], leaves [.str (lit m.bar)], leaves m.baz, nums m.repeatInt, leaves m.repeatStruct, nums m.repeatInt2,
   m.nest.map nestVal, nums m.repeatInt3]

/-- `enc_dec_tests` -/
def encDecTests : List DecodedMsg :=
  [{ foo := 23, bar := "twentythree" },
   { foo := 23, bar := "twentythree", baz := [.baz 2323 true] },
   { foo := 23, bar := "twentythree", baz := [.baz 2323 true], repeatInt := [1, 2, 0x7fff] },
   { foo := 23, bar := "twentythree", repeatInt := [1, 2, 0x7fff], repeatStruct := [.rep 1001 true 0], repeatInt2 := [23, 42],
     nest := [(42, "fortytwo", .baz 4242 false)], repeatInt3 := [423] },
   { foo := 23, bar := "twentythree", baz := [.baz 2323 true], repeatInt := [1, 2, 0x7fff],
     repeatStruct := [.rep 1001 true 0, .rep 1002 false 1], nest := [(42, "fortytwo", .baz 4242 false)] }]

/-- What is printed for a struct: the text (twice), the octets. -/
structure Printed where
  text : String
  octets : List UInt8

/-- Encode, decode: `test_enc_dec()`, where `t` is the text of a struct. -/
def roundTrip (cfg : Cfg) (ordered : Bool) (tab : TTab) (t : Struct TVal → Option Text) (front : List UInt8) (s : Struct TVal)
    (p : Printed) : Bool :=
  decide (t s = some (lit p.text)) &&
  match gtlvsEncode cfg s ⟨1024, front⟩ (some (tab.codings cfg ordered)) with
  | .ok b =>
    decide (b.data = p.octets) &&
    match gtlvsDecode { cfg := cfg, mem := b.data.drop front.length ++ List.replicate (1024 - b.data.length) 0,
                        srcLen := b.data.length - front.length } ordered (some (tab.codings cfg ordered)) with
    | .ok s' => decide (t s' = some (lit p.text))
    | _ => false
  | _ => false

/-- `decoded_msg_to_str()` -/
def decodedText (tab : TTab) (s : Struct TVal) : Option Text := heapText (gtlvsToStr tagNames s (some (tab.strCodings tagNames)))

/-- "1: t8l8v ordered", and the same for "unordered" (gtlv_dec_enc_test.ok). -/
def table1T8 : List Printed :=
  [⟨" 'FOO'=23 'BAR'=\"twentythree\"",
    [0x01, 0x02, 0x00, 0x17, 0x02, 0x0b, 0x74, 0x77, 0x65, 0x6e, 0x74, 0x79, 0x74, 0x68, 0x72, 0x65, 0x65]⟩,
   ⟨" 'FOO'=23 'BAR'=\"twentythree\" 'BAZ'={2323,true}",
    [0x01, 0x02, 0x00, 0x17, 0x02, 0x0b, 0x74, 0x77, 0x65, 0x6e, 0x74, 0x79, 0x74, 0x68, 0x72, 0x65, 0x65, 0x03,
     0x02, 0x89, 0x13]⟩,
   ⟨" 'FOO'=23 'BAR'=\"twentythree\" 'BAZ'={2323,true} 'REPEAT_INT'={ 1, 2, 32767 }",
    [0x01, 0x02, 0x00, 0x17, 0x02, 0x0b, 0x74, 0x77, 0x65, 0x6e, 0x74, 0x79, 0x74, 0x68, 0x72, 0x65, 0x65, 0x03,
     0x02, 0x89, 0x13, 0x04, 0x02, 0x00, 0x01, 0x04, 0x02, 0x00, 0x02, 0x04, 0x02, 0x7f, 0xff]⟩,
   ⟨" 'FOO'=23 'BAR'=\"twentythree\" 'REPEAT_INT'={ 1, 2, 32767 } 'REPEAT_INT'={ 23, 42 } 'REPEAT_INT'=423 'REPEAT_STRUCT'={ {1001,true,R_A} } 'NEST'={ 'FOO'=42 'BAR'=\"fortytwo\" 'BAZ'={4242,false} }",
    [0x01, 0x02, 0x00, 0x17, 0x02, 0x0b, 0x74, 0x77, 0x65, 0x6e, 0x74, 0x79, 0x74, 0x68, 0x72, 0x65, 0x65, 0x04,
     0x02, 0x00, 0x01, 0x04, 0x02, 0x00, 0x02, 0x04, 0x02, 0x7f, 0xff, 0x04, 0x02, 0x00, 0x17, 0x04, 0x02, 0x00,
     0x2a, 0x04, 0x02, 0x01, 0xa7, 0x05, 0x03, 0x03, 0xe9, 0x80, 0x06, 0x12, 0x01, 0x02, 0x00, 0x2a, 0x02, 0x08,
     0x66, 0x6f, 0x72, 0x74, 0x79, 0x74, 0x77, 0x6f, 0x03, 0x02, 0x10, 0x92]⟩,
   ⟨" 'FOO'=23 'BAR'=\"twentythree\" 'BAZ'={2323,true} 'REPEAT_INT'={ 1, 2, 32767 } 'REPEAT_STRUCT'={ {1001,true,R_A}, {1002,false,R_B} } 'NEST'={ 'FOO'=42 'BAR'=\"fortytwo\" 'BAZ'={4242,false} }",
    [0x01, 0x02, 0x00, 0x17, 0x02, 0x0b, 0x74, 0x77, 0x65, 0x6e, 0x74, 0x79, 0x74, 0x68, 0x72, 0x65, 0x65, 0x03,
     0x02, 0x89, 0x13, 0x04, 0x02, 0x00, 0x01, 0x04, 0x02, 0x00, 0x02, 0x04, 0x02, 0x7f, 0xff, 0x05, 0x03, 0x03,
     0xe9, 0x80, 0x05, 0x03, 0x03, 0xea, 0x01, 0x06, 0x12, 0x01, 0x02, 0x00, 0x2a, 0x02, 0x08, 0x66, 0x6f, 0x72,
     0x74, 0x79, 0x74, 0x77, 0x6f, 0x03, 0x02, 0x10, 0x92]⟩]

/-- "1: t16l16v ordered", and the same for "unordered" (gtlv_dec_enc_test.ok). -/
def table1T16 : List Printed :=
  [⟨" 'FOO'=23 'BAR'=\"twentythree\"",
    [0x00, 0x01, 0x00, 0x02, 0x00, 0x17, 0x00, 0x02, 0x00, 0x0b, 0x74, 0x77, 0x65, 0x6e, 0x74, 0x79, 0x74, 0x68,
     0x72, 0x65, 0x65]⟩,
   ⟨" 'FOO'=23 'BAR'=\"twentythree\" 'BAZ'={2323,true}",
    [0x00, 0x01, 0x00, 0x02, 0x00, 0x17, 0x00, 0x02, 0x00, 0x0b, 0x74, 0x77, 0x65, 0x6e, 0x74, 0x79, 0x74, 0x68,
     0x72, 0x65, 0x65, 0x00, 0x03, 0x00, 0x02, 0x89, 0x13]⟩,
   ⟨" 'FOO'=23 'BAR'=\"twentythree\" 'BAZ'={2323,true} 'REPEAT_INT'={ 1, 2, 32767 }",
    [0x00, 0x01, 0x00, 0x02, 0x00, 0x17, 0x00, 0x02, 0x00, 0x0b, 0x74, 0x77, 0x65, 0x6e, 0x74, 0x79, 0x74, 0x68,
     0x72, 0x65, 0x65, 0x00, 0x03, 0x00, 0x02, 0x89, 0x13, 0x00, 0x04, 0x00, 0x02, 0x00, 0x01, 0x00, 0x04, 0x00,
     0x02, 0x00, 0x02, 0x00, 0x04, 0x00, 0x02, 0x7f, 0xff]⟩,
   ⟨" 'FOO'=23 'BAR'=\"twentythree\" 'REPEAT_INT'={ 1, 2, 32767 } 'REPEAT_INT'={ 23, 42 } 'REPEAT_INT'=423 'REPEAT_STRUCT'={ {1001,true,R_A} } 'NEST'={ 'FOO'=42 'BAR'=\"fortytwo\" 'BAZ'={4242,false} }",
    [0x00, 0x01, 0x00, 0x02, 0x00, 0x17, 0x00, 0x02, 0x00, 0x0b, 0x74, 0x77, 0x65, 0x6e, 0x74, 0x79, 0x74, 0x68,
     0x72, 0x65, 0x65, 0x00, 0x04, 0x00, 0x02, 0x00, 0x01, 0x00, 0x04, 0x00, 0x02, 0x00, 0x02, 0x00, 0x04, 0x00,
     0x02, 0x7f, 0xff, 0x00, 0x04, 0x00, 0x02, 0x00, 0x17, 0x00, 0x04, 0x00, 0x02, 0x00, 0x2a, 0x00, 0x04, 0x00,
     0x02, 0x01, 0xa7, 0x00, 0x05, 0x00, 0x03, 0x03, 0xe9, 0x80, 0x00, 0x06, 0x00, 0x18, 0x00, 0x01, 0x00, 0x02,
     0x00, 0x2a, 0x00, 0x02, 0x00, 0x08, 0x66, 0x6f, 0x72, 0x74, 0x79, 0x74, 0x77, 0x6f, 0x00, 0x03, 0x00, 0x02,
     0x10, 0x92]⟩,
   ⟨" 'FOO'=23 'BAR'=\"twentythree\" 'BAZ'={2323,true} 'REPEAT_INT'={ 1, 2, 32767 } 'REPEAT_STRUCT'={ {1001,true,R_A}, {1002,false,R_B} } 'NEST'={ 'FOO'=42 'BAR'=\"fortytwo\" 'BAZ'={4242,false} }",
    [0x00, 0x01, 0x00, 0x02, 0x00, 0x17, 0x00, 0x02, 0x00, 0x0b, 0x74, 0x77, 0x65, 0x6e, 0x74, 0x79, 0x74, 0x68,
     0x72, 0x65, 0x65, 0x00, 0x03, 0x00, 0x02, 0x89, 0x13, 0x00, 0x04, 0x00, 0x02, 0x00, 0x01, 0x00, 0x04, 0x00,
     0x02, 0x00, 0x02, 0x00, 0x04, 0x00, 0x02, 0x7f, 0xff, 0x00, 0x05, 0x00, 0x03, 0x03, 0xe9, 0x80, 0x00, 0x05,
     0x00, 0x03, 0x03, 0xea, 0x01, 0x00, 0x06, 0x00, 0x18, 0x00, 0x01, 0x00, 0x02, 0x00, 0x2a, 0x00, 0x02, 0x00,
     0x08, 0x66, 0x6f, 0x72, 0x74, 0x79, 0x74, 0x77, 0x6f, 0x00, 0x03, 0x00, 0x02, 0x10, 0x92]⟩]

/-- "2: t8l8v ordered", and the same for "unordered" (gtlv_dec_enc_test.ok). -/
def table2T8 : List Printed :=
  [⟨" 'FOO'=23 'BAR'=\"twentythree\"",
    [0x01, 0x02, 0x00, 0x17, 0x02, 0x0b, 0x74, 0x77, 0x65, 0x6e, 0x74, 0x79, 0x74, 0x68, 0x72, 0x65, 0x65]⟩,
   ⟨" 'FOO'=23 'BAR'=\"twentythree\" 'BAZ'={2323,true}",
    [0x01, 0x02, 0x00, 0x17, 0x02, 0x0b, 0x74, 0x77, 0x65, 0x6e, 0x74, 0x79, 0x74, 0x68, 0x72, 0x65, 0x65, 0x03,
     0x02, 0x89, 0x13]⟩,
   ⟨" 'FOO'=23 'BAR'=\"twentythree\" 'BAZ'={2323,true} 'REPEAT_INT'={ 1, 2, 32767 }",
    [0x01, 0x02, 0x00, 0x17, 0x02, 0x0b, 0x74, 0x77, 0x65, 0x6e, 0x74, 0x79, 0x74, 0x68, 0x72, 0x65, 0x65, 0x03,
     0x02, 0x89, 0x13, 0x04, 0x02, 0x00, 0x01, 0x04, 0x02, 0x00, 0x02, 0x04, 0x02, 0x7f, 0xff]⟩,
   ⟨" 'FOO'=23 'BAR'=\"twentythree\" 'REPEAT_INT'={ 1, 2, 32767 } 'REPEAT_STRUCT'={ {1001,true,R_A} } 'REPEAT_INT'={ 23, 42 } 'NEST'={ 'FOO'=42 'BAR'=\"fortytwo\" 'BAZ'={4242,false} } 'REPEAT_INT'=423",
    [0x01, 0x02, 0x00, 0x17, 0x02, 0x0b, 0x74, 0x77, 0x65, 0x6e, 0x74, 0x79, 0x74, 0x68, 0x72, 0x65, 0x65, 0x04,
     0x02, 0x00, 0x01, 0x04, 0x02, 0x00, 0x02, 0x04, 0x02, 0x7f, 0xff, 0x05, 0x03, 0x03, 0xe9, 0x80, 0x04, 0x02,
     0x00, 0x17, 0x04, 0x02, 0x00, 0x2a, 0x06, 0x12, 0x01, 0x02, 0x00, 0x2a, 0x02, 0x08, 0x66, 0x6f, 0x72, 0x74,
     0x79, 0x74, 0x77, 0x6f, 0x03, 0x02, 0x10, 0x92, 0x04, 0x02, 0x01, 0xa7]⟩,
   ⟨" 'FOO'=23 'BAR'=\"twentythree\" 'BAZ'={2323,true} 'REPEAT_INT'={ 1, 2, 32767 } 'REPEAT_STRUCT'={ {1001,true,R_A}, {1002,false,R_B} } 'NEST'={ 'FOO'=42 'BAR'=\"fortytwo\" 'BAZ'={4242,false} }",
    [0x01, 0x02, 0x00, 0x17, 0x02, 0x0b, 0x74, 0x77, 0x65, 0x6e, 0x74, 0x79, 0x74, 0x68, 0x72, 0x65, 0x65, 0x03,
     0x02, 0x89, 0x13, 0x04, 0x02, 0x00, 0x01, 0x04, 0x02, 0x00, 0x02, 0x04, 0x02, 0x7f, 0xff, 0x05, 0x03, 0x03,
     0xe9, 0x80, 0x05, 0x03, 0x03, 0xea, 0x01, 0x06, 0x12, 0x01, 0x02, 0x00, 0x2a, 0x02, 0x08, 0x66, 0x6f, 0x72,
     0x74, 0x79, 0x74, 0x77, 0x6f, 0x03, 0x02, 0x10, 0x92]⟩]

/-- "2: t16l16v ordered", and the same for "unordered" (gtlv_dec_enc_test.ok). -/
def table2T16 : List Printed :=
  [⟨" 'FOO'=23 'BAR'=\"twentythree\"",
    [0x00, 0x01, 0x00, 0x02, 0x00, 0x17, 0x00, 0x02, 0x00, 0x0b, 0x74, 0x77, 0x65, 0x6e, 0x74, 0x79, 0x74, 0x68,
     0x72, 0x65, 0x65]⟩,
   ⟨" 'FOO'=23 'BAR'=\"twentythree\" 'BAZ'={2323,true}",
    [0x00, 0x01, 0x00, 0x02, 0x00, 0x17, 0x00, 0x02, 0x00, 0x0b, 0x74, 0x77, 0x65, 0x6e, 0x74, 0x79, 0x74, 0x68,
     0x72, 0x65, 0x65, 0x00, 0x03, 0x00, 0x02, 0x89, 0x13]⟩,
   ⟨" 'FOO'=23 'BAR'=\"twentythree\" 'BAZ'={2323,true} 'REPEAT_INT'={ 1, 2, 32767 }",
    [0x00, 0x01, 0x00, 0x02, 0x00, 0x17, 0x00, 0x02, 0x00, 0x0b, 0x74, 0x77, 0x65, 0x6e, 0x74, 0x79, 0x74, 0x68,
     0x72, 0x65, 0x65, 0x00, 0x03, 0x00, 0x02, 0x89, 0x13, 0x00, 0x04, 0x00, 0x02, 0x00, 0x01, 0x00, 0x04, 0x00,
     0x02, 0x00, 0x02, 0x00, 0x04, 0x00, 0x02, 0x7f, 0xff]⟩,
   ⟨" 'FOO'=23 'BAR'=\"twentythree\" 'REPEAT_INT'={ 1, 2, 32767 } 'REPEAT_STRUCT'={ {1001,true,R_A} } 'REPEAT_INT'={ 23, 42 } 'NEST'={ 'FOO'=42 'BAR'=\"fortytwo\" 'BAZ'={4242,false} } 'REPEAT_INT'=423",
    [0x00, 0x01, 0x00, 0x02, 0x00, 0x17, 0x00, 0x02, 0x00, 0x0b, 0x74, 0x77, 0x65, 0x6e, 0x74, 0x79, 0x74, 0x68,
     0x72, 0x65, 0x65, 0x00, 0x04, 0x00, 0x02, 0x00, 0x01, 0x00, 0x04, 0x00, 0x02, 0x00, 0x02, 0x00, 0x04, 0x00,
     0x02, 0x7f, 0xff, 0x00, 0x05, 0x00, 0x03, 0x03, 0xe9, 0x80, 0x00, 0x04, 0x00, 0x02, 0x00, 0x17, 0x00, 0x04,
     0x00, 0x02, 0x00, 0x2a, 0x00, 0x06, 0x00, 0x18, 0x00, 0x01, 0x00, 0x02, 0x00, 0x2a, 0x00, 0x02, 0x00, 0x08,
     0x66, 0x6f, 0x72, 0x74, 0x79, 0x74, 0x77, 0x6f, 0x00, 0x03, 0x00, 0x02, 0x10, 0x92, 0x00, 0x04, 0x00, 0x02,
     0x01, 0xa7]⟩,
   ⟨" 'FOO'=23 'BAR'=\"twentythree\" 'BAZ'={2323,true} 'REPEAT_INT'={ 1, 2, 32767 } 'REPEAT_STRUCT'={ {1001,true,R_A}, {1002,false,R_B} } 'NEST'={ 'FOO'=42 'BAR'=\"fortytwo\" 'BAZ'={4242,false} }",
    [0x00, 0x01, 0x00, 0x02, 0x00, 0x17, 0x00, 0x02, 0x00, 0x0b, 0x74, 0x77, 0x65, 0x6e, 0x74, 0x79, 0x74, 0x68,
     0x72, 0x65, 0x65, 0x00, 0x03, 0x00, 0x02, 0x89, 0x13, 0x00, 0x04, 0x00, 0x02, 0x00, 0x01, 0x00, 0x04, 0x00,
     0x02, 0x00, 0x02, 0x00, 0x04, 0x00, 0x02, 0x7f, 0xff, 0x00, 0x05, 0x00, 0x03, 0x03, 0xe9, 0x80, 0x00, 0x05,
     0x00, 0x03, 0x03, 0xea, 0x01, 0x00, 0x06, 0x00, 0x18, 0x00, 0x01, 0x00, 0x02, 0x00, 0x2a, 0x00, 0x02, 0x00,
     0x08, 0x66, 0x6f, 0x72, 0x74, 0x79, 0x74, 0x77, 0x6f, 0x00, 0x03, 0x00, 0x02, 0x10, 0x92]⟩]

/-- The model prints what the code printed: both tables, both configurations, ordered and unordered. -/
example : (decide (table1T8.length = 5 ∧ table2T8.length = 5 ∧ table1T16.length = 5 ∧ table2T16.length = 5) &&
    ([true, false].all fun ordered =>
      ((encDecTests.zip table1T8).all fun (m, p) =>
        roundTrip t8l8v ordered msgIeCoding (decodedText msgIeCoding) [] m.struct p) &&
      ((encDecTests.zip table1T16).all fun (m, p) =>
        roundTrip t16l16v ordered msgIeCoding (decodedText msgIeCoding) [] m.struct p) &&
      ((encDecTests.zip table2T8).all fun (m, p) =>
        roundTrip t8l8v ordered msgIeCoding2 (decodedText msgIeCoding2) [] m.struct2 p) &&
      ((encDecTests.zip table2T16).all fun (m, p) =>
        roundTrip t16l16v ordered msgIeCoding2 (decodedText msgIeCoding2) [] m.struct2 p))) = true := by
  decide +kernel

/-! ### test_gtlv_gen -/

/-- The table that a generated table is, where the names of tags, instances and functions have these meanings. -/
def ttab (value : Text → Option Nat) (fn : Text → Option TFn) : Tab → Option TTab
  | .nil => some .nil
  | .func h s r => do
    let ti ← tagInst h
    let f ← fn s
    let r ← ttab value fn r
    some (.func ti (kindOf h) f r)
  | .nested h a r => do
    let ti ← tagInst h
    let a ← ttab value fn a
    let r ← ttab value fn r
    some (.nested ti (kindOf h) a r)
where
  kindOf (h : CHead) : Kind := if h.multi ≠ 0 then .multi h.multi h.mandatory else if h.presence then .opt else .mand
  tagInst (h : CHead) : Option TagInst :=
    match h.inst with
    | none => (value h.tag).bind fun t => some ⟨t, none⟩
    | some i => (value h.tag).bind fun t => (value i).bind fun i => some ⟨t, some i⟩

/-- `osmo_gtlv_gen_main()` and the C compiler, then `myproto_get_msg_coding()`. -/
def getMsgCoding (c : GCfg) (ms : List GMsg) (value : Text → Option Nat) (fn : Text → Option TFn) (type : Nat) : Option TTab :=
  (writeC c ms).bind fun g => (compile g.arrays []).bind fun env => (g.getMsgCoding value env type).bind (ttab value fn)

/-- `struct osmo_gtlv_gen_cfg` (gen__myproto_ies_auto.c, in both directories) -/
def myproto : GCfg :=
  { protoName := lit "myproto"
    messageTypePrefix := lit "MYPROTO_MSGT_"
    tagPrefix := lit "MYPROTO_IEI_"
    decodedTypePrefix := lit "struct myproto_ie_"
    messageTypeEnum := some (lit "enum myproto_msg_type")
    hHeader := some (lit "#include \"myproto_ies_custom.h\"")
    cHeader := some (lit "#include <myproto_ies_auto.h>")
    addEncToStr := true }

def auto : GInfo := { addr := 0 }
def number : GInfo := { addr := 1, decodedType := some (lit "int"), decEnc := some (lit "u16"), specRef := some (lit "an int coded as uint16_t") }
def hugeNumber : GInfo := { addr := 2, decodedType := some (lit "uint64_t"), decEnc := some (lit "u64") }
def mooNest : GInfo := { addr := 3, tagName := some (lit "moo_nest") }
def gooNest : GInfo := { addr := 4, tagName := some (lit "goo_nest") }
def gO (name : String) : GOcc := { name := lit name, optional := true }
def gM (name : String) : GOcc := { name := lit name }
def gOMulti (max : Nat) (name : String) : GOcc := { name := lit name, multi := max }

/-- `ies_in_moo_nest`, `ies_in_goo_nest`, `ies_in_moo_msg`, `ies_in_goo_msg`, `msg_defs` (gen__myproto_ies_auto.c) -/
def iesInMooNest : GIes := .ie (gM "foo") number <| .ie (gM "bar") auto <| .ie (gM "baz") auto .nil
def iesInGooNest : GIes := .ie (gO "val") hugeNumber <| .group (gM "nest") mooNest iesInMooNest .nil
def iesInMooMsg : GIes :=
  .ie (gM "foo") number <| .ie (gM "bar") auto <| .ie (gO "baz") auto <| .ie (gOMulti 32 "repeat_int") number <|
  .ie (gOMulti 32 "repeat_struct") auto <| .group (gO "nest") mooNest iesInMooNest .nil
def iesInGooMsg : GIes := .ie (gM "foo") number <| .ie (gO "bar") auto <| .group (gOMulti 8 "nest") gooNest iesInGooNest .nil
def myMsgs : List GMsg := [⟨lit "moo", iesInMooMsg⟩, ⟨lit "goo", iesInGooMsg⟩]

/-- `enum myproto_msg_type`, `enum myproto_iei` (myproto_ies_custom.h) -/
def myValue (name : Text) : Option Nat :=
  ([("MYPROTO_MSGT_MOO", 1), ("MYPROTO_MSGT_GOO", 7), ("MYPROTO_IEI_FOO", 1), ("MYPROTO_IEI_BAR", 2), ("MYPROTO_IEI_BAZ", 3),
    ("MYPROTO_IEI_REPEAT_INT", 4), ("MYPROTO_IEI_REPEAT_STRUCT", 5), ("MYPROTO_IEI_MOO_NEST", 6), ("MYPROTO_IEI_VAL", 7),
    ("MYPROTO_IEI_GOO_NEST", 8)].find? fun e => lit e.1 = name).map (·.2)

/-- The functions `myproto_dec_..()`, `myproto_enc_..()`, `myproto_enc_to_str_..()` (myproto_ies_custom.c) -/
def myFn (suffix : Text) : Option TFn :=
  ([("u16", TFn.u16), ("u64", TFn.u64), ("bar", TFn.bar), ("baz", TFn.baz), ("repeat_struct", TFn.rep)].find?
    fun e => lit e.1 = suffix).map (·.2)

def myTypeNames : ValueStrs := [(1, "MOO"), (7, "GOO")]
def myIeiNames : ValueStrs :=
  [(1, "FOO"), (2, "BAR"), (3, "BAZ"), (4, "REPEAT_INT"), (5, "REPEAT_STRUCT"), (6, "MOO_NEST"), (7, "VAL"), (8, "GOO_NEST")]

/-- `myproto_msg_to_str_buf()` (gtlv_gen_test.c, tliv_test.c) -/
def myText (typeNames ieiNames : ValueStrs) (type : Nat) (tab : TTab) (s : Struct TVal) : Option Text :=
  heapText (strFn fun sb =>
    (sb.printf (valueStr typeNames type ++ lit "={")).bind fun sb =>
    (sb.append (gtlvsToStr ieiNames s (some (tab.strCodings ieiNames)))).bind fun sb => sb.printf (lit " }"))

/-- `test_enc_dec()` (gtlv_gen_test.c): the octet of the type is in front. -/
def myTest (cfg : Cfg) (ordered : Bool) (type : Nat) (s : Struct TVal) (p : Printed) : Bool :=
  match getMsgCoding myproto myMsgs myValue myFn type with
  | some tab => roundTrip cfg ordered tab (myText myTypeNames myIeiNames type tab) [UInt8.ofNat type] s p
  | none => false

/-- `tests` (gtlv_gen_test.c): type and members. -/
def myTests : List (Nat × Struct TVal) :=
  [(1, [nums [23], leaves [.str (lit "twentythree")], [], [], [], []]),
   (1, [nums [23], leaves [.str (lit "twentythree")], leaves [.baz 2323 true], [], [], []]),
   (1, [nums [23], leaves [.str (lit "twentythree")], leaves [.baz 2323 true], nums [1, 2, 0x7fff], [], []]),
   (1, [nums [23], leaves [.str (lit "twentythree")], leaves [.baz 2323 true], nums [1, 2, 0x7fff],
        leaves [.rep 1001 true 0, .rep 1002 false 1], [nestVal (42, "fortytwo", .baz 4242 false)]]),
   (7, [nums [17], leaves [.str (lit "gooei")],
        [.node [leaves [.big 0x0123456789abcdef], [nestVal (11, "eleven", .baz 1111 true)]],
         .node [[], [nestVal (12, "twelve", .baz 1212 false)]]]])]

/-- "t8l8v ordered", and the same for "unordered" (gtlv_gen_test.ok). -/
def genT8 : List Printed :=
  [⟨"MOO={ 'FOO'=23 'BAR'=\"twentythree\" }",
    [0x01, 0x01, 0x02, 0x00, 0x17, 0x02, 0x0b, 0x74, 0x77, 0x65, 0x6e, 0x74, 0x79, 0x74, 0x68, 0x72, 0x65, 0x65]⟩,
   ⟨"MOO={ 'FOO'=23 'BAR'=\"twentythree\" 'BAZ'={2323,true} }",
    [0x01, 0x01, 0x02, 0x00, 0x17, 0x02, 0x0b, 0x74, 0x77, 0x65, 0x6e, 0x74, 0x79, 0x74, 0x68, 0x72, 0x65, 0x65,
     0x03, 0x02, 0x89, 0x13]⟩,
   ⟨"MOO={ 'FOO'=23 'BAR'=\"twentythree\" 'BAZ'={2323,true} 'REPEAT_INT'={ 1, 2, 32767 } }",
    [0x01, 0x01, 0x02, 0x00, 0x17, 0x02, 0x0b, 0x74, 0x77, 0x65, 0x6e, 0x74, 0x79, 0x74, 0x68, 0x72, 0x65, 0x65,
     0x03, 0x02, 0x89, 0x13, 0x04, 0x02, 0x00, 0x01, 0x04, 0x02, 0x00, 0x02, 0x04, 0x02, 0x7f, 0xff]⟩,
   ⟨"MOO={ 'FOO'=23 'BAR'=\"twentythree\" 'BAZ'={2323,true} 'REPEAT_INT'={ 1, 2, 32767 } 'REPEAT_STRUCT'={ {1001,true,R_A}, {1002,false,R_B} } 'MOO_NEST'={ 'FOO'=42 'BAR'=\"fortytwo\" 'BAZ'={4242,false} } }",
    [0x01, 0x01, 0x02, 0x00, 0x17, 0x02, 0x0b, 0x74, 0x77, 0x65, 0x6e, 0x74, 0x79, 0x74, 0x68, 0x72, 0x65, 0x65,
     0x03, 0x02, 0x89, 0x13, 0x04, 0x02, 0x00, 0x01, 0x04, 0x02, 0x00, 0x02, 0x04, 0x02, 0x7f, 0xff, 0x05, 0x03,
     0x03, 0xe9, 0x80, 0x05, 0x03, 0x03, 0xea, 0x01, 0x06, 0x12, 0x01, 0x02, 0x00, 0x2a, 0x02, 0x08, 0x66, 0x6f,
     0x72, 0x74, 0x79, 0x74, 0x77, 0x6f, 0x03, 0x02, 0x10, 0x92]⟩,
   ⟨"GOO={ 'FOO'=17 'BAR'=\"gooei\" 'GOO_NEST'={ { 'VAL'=0x123456789abcdef 'MOO_NEST'={ 'FOO'=11 'BAR'=\"eleven\" 'BAZ'={1111,true} } }, { 'MOO_NEST'={ 'FOO'=12 'BAR'=\"twelve\" 'BAZ'={1212,false} } } } }",
    [0x07, 0x01, 0x02, 0x00, 0x11, 0x02, 0x05, 0x67, 0x6f, 0x6f, 0x65, 0x69, 0x08, 0x1c, 0x07, 0x08, 0x01, 0x23,
     0x45, 0x67, 0x89, 0xab, 0xcd, 0xef, 0x06, 0x10, 0x01, 0x02, 0x00, 0x0b, 0x02, 0x06, 0x65, 0x6c, 0x65, 0x76,
     0x65, 0x6e, 0x03, 0x02, 0x84, 0x57, 0x08, 0x12, 0x06, 0x10, 0x01, 0x02, 0x00, 0x0c, 0x02, 0x06, 0x74, 0x77,
     0x65, 0x6c, 0x76, 0x65, 0x03, 0x02, 0x04, 0xbc]⟩]

/-- "t16l16v ordered", and the same for "unordered" (gtlv_gen_test.ok). -/
def genT16 : List Printed :=
  [⟨"MOO={ 'FOO'=23 'BAR'=\"twentythree\" }",
    [0x01, 0x00, 0x01, 0x00, 0x02, 0x00, 0x17, 0x00, 0x02, 0x00, 0x0b, 0x74, 0x77, 0x65, 0x6e, 0x74, 0x79, 0x74,
     0x68, 0x72, 0x65, 0x65]⟩,
   ⟨"MOO={ 'FOO'=23 'BAR'=\"twentythree\" 'BAZ'={2323,true} }",
    [0x01, 0x00, 0x01, 0x00, 0x02, 0x00, 0x17, 0x00, 0x02, 0x00, 0x0b, 0x74, 0x77, 0x65, 0x6e, 0x74, 0x79, 0x74,
     0x68, 0x72, 0x65, 0x65, 0x00, 0x03, 0x00, 0x02, 0x89, 0x13]⟩,
   ⟨"MOO={ 'FOO'=23 'BAR'=\"twentythree\" 'BAZ'={2323,true} 'REPEAT_INT'={ 1, 2, 32767 } }",
    [0x01, 0x00, 0x01, 0x00, 0x02, 0x00, 0x17, 0x00, 0x02, 0x00, 0x0b, 0x74, 0x77, 0x65, 0x6e, 0x74, 0x79, 0x74,
     0x68, 0x72, 0x65, 0x65, 0x00, 0x03, 0x00, 0x02, 0x89, 0x13, 0x00, 0x04, 0x00, 0x02, 0x00, 0x01, 0x00, 0x04,
     0x00, 0x02, 0x00, 0x02, 0x00, 0x04, 0x00, 0x02, 0x7f, 0xff]⟩,
   ⟨"MOO={ 'FOO'=23 'BAR'=\"twentythree\" 'BAZ'={2323,true} 'REPEAT_INT'={ 1, 2, 32767 } 'REPEAT_STRUCT'={ {1001,true,R_A}, {1002,false,R_B} } 'MOO_NEST'={ 'FOO'=42 'BAR'=\"fortytwo\" 'BAZ'={4242,false} } }",
    [0x01, 0x00, 0x01, 0x00, 0x02, 0x00, 0x17, 0x00, 0x02, 0x00, 0x0b, 0x74, 0x77, 0x65, 0x6e, 0x74, 0x79, 0x74,
     0x68, 0x72, 0x65, 0x65, 0x00, 0x03, 0x00, 0x02, 0x89, 0x13, 0x00, 0x04, 0x00, 0x02, 0x00, 0x01, 0x00, 0x04,
     0x00, 0x02, 0x00, 0x02, 0x00, 0x04, 0x00, 0x02, 0x7f, 0xff, 0x00, 0x05, 0x00, 0x03, 0x03, 0xe9, 0x80, 0x00,
     0x05, 0x00, 0x03, 0x03, 0xea, 0x01, 0x00, 0x06, 0x00, 0x18, 0x00, 0x01, 0x00, 0x02, 0x00, 0x2a, 0x00, 0x02,
     0x00, 0x08, 0x66, 0x6f, 0x72, 0x74, 0x79, 0x74, 0x77, 0x6f, 0x00, 0x03, 0x00, 0x02, 0x10, 0x92]⟩,
   ⟨"GOO={ 'FOO'=17 'BAR'=\"gooei\" 'GOO_NEST'={ { 'VAL'=0x123456789abcdef 'MOO_NEST'={ 'FOO'=11 'BAR'=\"eleven\" 'BAZ'={1111,true} } }, { 'MOO_NEST'={ 'FOO'=12 'BAR'=\"twelve\" 'BAZ'={1212,false} } } } }",
    [0x07, 0x00, 0x01, 0x00, 0x02, 0x00, 0x11, 0x00, 0x02, 0x00, 0x05, 0x67, 0x6f, 0x6f, 0x65, 0x69, 0x00, 0x08,
     0x00, 0x26, 0x00, 0x07, 0x00, 0x08, 0x01, 0x23, 0x45, 0x67, 0x89, 0xab, 0xcd, 0xef, 0x00, 0x06, 0x00, 0x16,
     0x00, 0x01, 0x00, 0x02, 0x00, 0x0b, 0x00, 0x02, 0x00, 0x06, 0x65, 0x6c, 0x65, 0x76, 0x65, 0x6e, 0x00, 0x03,
     0x00, 0x02, 0x84, 0x57, 0x00, 0x08, 0x00, 0x1a, 0x00, 0x06, 0x00, 0x16, 0x00, 0x01, 0x00, 0x02, 0x00, 0x0c,
     0x00, 0x02, 0x00, 0x06, 0x74, 0x77, 0x65, 0x6c, 0x76, 0x65, 0x00, 0x03, 0x00, 0x02, 0x04, 0xbc]⟩]

/-- The model, of the generator and of the library, prints what the code printed. -/
example : (decide (genT8.length = 5 ∧ genT16.length = 5) &&
    ([true, false].all fun ordered =>
      ((myTests.zip genT8).all fun (m, p) => myTest t8l8v ordered m.1 m.2 p) &&
      ((myTests.zip genT16).all fun (m, p) => myTest t16l16v ordered m.1 m.2 p))) = true := by
  decide +kernel

/-! ### test_tliv -/

/-- `tliv_load_tl()` (tliv_test.c): the instance is counted by L. -/
def tlivInLoad (p : List UInt8) (n : Nat) : Res LoadedTl := do
  let t ← rd p 0
  let l ← rd p 1
  if t = 1 then
    if n < 3 then Res.err .ENOSPC
    else do
      let i ← rd p 2
      Res.ok { ti := { tag := t.toNat, inst := some i.toNat }
               len := if l = 0 then 2 ^ 64 - 1 else l.toNat - 1
               hdr := 3 }
  else Res.ok { ti := { tag := t.toNat }, len := l.toNat, hdr := 2 }

/-- `tliv_store_tl()` (tliv_test.c). -/
def tlivInStore (avail : Nat) (ti : TagInst) (len : Nat) : Except Errno (List UInt8) :=
  if ti.tag > 255 then .error .EINVAL
  else if len > 255 then .error .EMSGSIZE
  else if avail < 2 then .error .ENOSPC
  else if ti.tag = 1 then
    if avail < 3 then .error .ENOSPC
    else
      match ti.inst with
      | none => .error .EINVAL
      | some i => if i > 255 then .error .EINVAL else .ok (storeBE 1 ti.tag ++ storeBE 1 (len + 1) ++ storeBE 1 i)
  else .ok (storeBE 1 ti.tag ++ storeBE 1 len)

def tlivIn : Cfg where
  tlMin := 2
  loadTl := tlivInLoad
  storeTl := tlivInStore

/-- `bar`, `ies_in_moo_msg`, `msg_defs` (test_tliv/gen__myproto_ies_auto.c) -/
def barIe : GInfo := { addr := 1, tagName := some (lit "bar") }
def gInst (inst : String) (optional : Bool) (name : String) : GOcc :=
  { name := lit name, optional := optional, inst := some (lit inst) }
def tlivMsgs : List GMsg :=
  [⟨lit "moo", .ie (gInst "MYPROTO_IEI_BAR_ALPHA" false "bar_alpha") barIe <|
    .ie (gInst "MYPROTO_IEI_BAR_BETA" true "bar_beta") barIe <|
    .ie (gInst "MYPROTO_IEI_BAR_GAMMA" false "bar_gamma") barIe .nil⟩]

def tlivValue (name : Text) : Option Nat :=
  ([("MYPROTO_MSGT_MOO", 1), ("MYPROTO_IEI_BAR", 1), ("MYPROTO_IEI_BAR_ALPHA", 2), ("MYPROTO_IEI_BAR_BETA", 3),
    ("MYPROTO_IEI_BAR_GAMMA", 5)].find? fun e => lit e.1 = name).map (·.2)
def tlivFn (suffix : Text) : Option TFn := if suffix = lit "bar" then some .pair else none

def tlivTest (ordered : Bool) (s : Struct TVal) (p : Printed) : Bool :=
  match getMsgCoding myproto tlivMsgs tlivValue tlivFn 1 with
  | some tab => roundTrip tlivIn ordered tab (myText [(1, "MOO")] [(1, "BAR")] 1 tab) [1] s p
  | none => false

/-- `tests` (tliv_test.c) -/
def tlivTests : List (Struct TVal) :=
  [[leaves [.pair 23 true], [], leaves [.pair 42 false]],
   [leaves [.pair 11 true], leaves [.pair 22 false], leaves [.pair 33 true]]]

/-- "tliv ordered", and the same for "unordered" (tliv_test.ok). -/
def tlivRecords : List Printed :=
  [⟨"MOO={ 'BAR'=23,true 'BAR'=42,false }",
    [0x01, 0x01, 0x03, 0x02, 0x17, 0x01, 0x01, 0x03, 0x05, 0x2a, 0x00]⟩,
   ⟨"MOO={ 'BAR'=11,true 'BAR'=22,false 'BAR'=33,true }",
    [0x01, 0x01, 0x03, 0x02, 0x0b, 0x01, 0x01, 0x03, 0x03, 0x16, 0x00, 0x01, 0x03, 0x05, 0x21, 0x01]⟩]

/-- The model prints what the code printed. -/
example : (decide (tlivRecords.length = 2) &&
    ([true, false].all fun ordered => (tlivTests.zip tlivRecords).all fun (s, p) => tlivTest ordered s p)) = true := by
  decide +kernel

end Verif.Recorded
