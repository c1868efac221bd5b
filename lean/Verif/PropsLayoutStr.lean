/-
C92: printing a struct in memory.
-/
import Verif.AsInC
import Verif.GenLayoutStr
import Verif.PropsGenLayout
import Verif.PropsStrs

namespace Verif
open Spec

theorem ptable_table {A : Type} (l : CLib A) (str : Text → Option (A → StrFn)) : ∀ t : Tab,
    (l.ptable str t).map PTab.tab = l.table t
  | .nil => by simp [CLib.ptable, CLib.table, PTab.tab]
  | .func h s r => by
    have := ptable_table l str r
    simp only [CLib.ptable, CLib.table, ← this]
    cases l.place h <;> simp
    cases l.fn s <;> simp
    cases l.ptable str r <;> simp [PTab.tab, PTy.ty]
  | .nested h n r => by
    have h1 := ptable_table l str r
    have h2 := ptable_table l str n
    simp only [CLib.ptable, CLib.table, ← h1, ← h2]
    cases l.place h <;> simp
    cases l.ptable str n <;> simp
    cases l.ptable str r <;> simp [PTab.tab, PTy.ty]

namespace Pfcp

/-- Without offsets, a table of libosmo-pfcp prints as the one of `Strs`. -/
theorem strSlots_fields {structs abi left} (lt : LibText) : ∀ {t : Tab} {f : Fields} {pt : PTab IeVal}, fields t = some f →
    (lib structs abi left).ptable (str lt) t = some pt → strSlotsOf ieiStrs pt = f.strCodings lt
  | .nil, f, mt, h, h' => by cases h; cases h'; simp [strSlotsOf, Fields.strCodings]
  | .func hd s r, f, mt, h, h' => by
    simp only [fields] at h
    obtain ⟨t, hv, h⟩ := Option.bind_eq_some_iff.1 h
    obtain ⟨k, hk, h⟩ := Option.bind_eq_some_iff.1 h
    obtain ⟨fk, hf, h⟩ := Option.bind_eq_some_iff.1 h
    obtain ⟨fr, hr, h⟩ := Option.bind_eq_some_iff.1 h
    cases h
    simp only [CLib.ptable] at h'
    obtain ⟨⟨p, ty⟩, hp, h'⟩ := Option.bind_eq_some_iff.1 h'
    obtain ⟨fn', hfn, h'⟩ := Option.bind_eq_some_iff.1 h'
    obtain ⟨mr, hmr, h'⟩ := Option.bind_eq_some_iff.1 h'
    cases h'
    obtain ⟨e1, e2⟩ := place_head hv hk hp
    have ih := strSlots_fields lt hr hmr
    simp only [strSlotsOf, strSlotOf, Fields.strCodings, Ty.strHow, e1, e2, ih, str, hf, Option.map_some]
    congr 4
    funext v
    cases v <;> simp [ieStrFn]
  | .nested hd n r, f, mt, h, h' => by
    simp only [fields] at h
    obtain ⟨t, hv, h⟩ := Option.bind_eq_some_iff.1 h
    obtain ⟨k, hk, h⟩ := Option.bind_eq_some_iff.1 h
    obtain ⟨fn', hn, h⟩ := Option.bind_eq_some_iff.1 h
    obtain ⟨fr, hr, h⟩ := Option.bind_eq_some_iff.1 h
    cases h
    simp only [CLib.ptable] at h'
    obtain ⟨⟨p, ty⟩, hp, h'⟩ := Option.bind_eq_some_iff.1 h'
    obtain ⟨mn, hmn, h'⟩ := Option.bind_eq_some_iff.1 h'
    obtain ⟨mr, hmr, h'⟩ := Option.bind_eq_some_iff.1 h'
    cases h'
    obtain ⟨e1, e2⟩ := place_head hv hk hp
    have ih1 := strSlots_fields lt hr hmr
    have ih2 := strSlots_fields lt hn hmn
    simp only [strSlotsOf, strSlotOf, Fields.strCodings, Ty.strHow, e1, e2, ih1, ih2]
    congr 3
    funext v
    cases v <;> rfl

theorem zero_valTyped (k : IeKind) : ValTyped (.ie k) (.leaf k.zero) := by
  simp only [ValTyped]
  cases k <;> exact ⟨rfl, by first | rfl | trivial⟩

/-- In a struct that is zero, values have the types of their members. -/
theorem zero_typed {structs abi left} : ∀ {t : Tab} {f : Fields} {mt : MTab IeVal}, fields t = some f →
    (lib structs abi left).table t = some mt → StructTyped f (zeroStruct mt)
  | .nil, f, mt, h, h' => by cases h; cases h'; simp [zeroStruct, StructTyped]
  | .func hd s r, f, mt, h, h' => by
    simp only [fields] at h
    obtain ⟨t, hv, h⟩ := Option.bind_eq_some_iff.1 h
    obtain ⟨k, hk, h⟩ := Option.bind_eq_some_iff.1 h
    obtain ⟨fk, hf, h⟩ := Option.bind_eq_some_iff.1 h
    obtain ⟨fr, hr, h⟩ := Option.bind_eq_some_iff.1 h
    cases h
    simp only [CLib.table] at h'
    obtain ⟨⟨p, ty⟩, hp, h'⟩ := Option.bind_eq_some_iff.1 h'
    obtain ⟨fn', hfn, h'⟩ := Option.bind_eq_some_iff.1 h'
    obtain ⟨mr, hmr, h'⟩ := Option.bind_eq_some_iff.1 h'
    cases h'
    obtain ⟨e1, e2⟩ := place_head hv hk hp
    have ih := zero_typed hr hmr
    have hfn' : fn left s = some fn' := hfn
    simp only [fn, hf, Option.bind_some] at hfn'
    obtain ⟨ft, -, hfn'⟩ := Option.bind_eq_some_iff.1 hfn'
    cases hfn'
    simp only [zeroStruct, zeroVal, StructTyped, CFn.leaf, e2]
    cases k with
    | mand =>
      simp only [if_true]
      exact ⟨rfl, fun v hv => (by rw [List.mem_singleton.1 hv]; exact zero_valTyped fk), ih⟩
    | opt => exact ⟨Nat.zero_le 1, by simp, ih⟩
    | multi a b => exact ⟨Nat.zero_le a, by simp, ih⟩
  | .nested hd n r, f, mt, h, h' => by
    simp only [fields] at h
    obtain ⟨t, hv, h⟩ := Option.bind_eq_some_iff.1 h
    obtain ⟨k, hk, h⟩ := Option.bind_eq_some_iff.1 h
    obtain ⟨fn', hn, h⟩ := Option.bind_eq_some_iff.1 h
    obtain ⟨fr, hr, h⟩ := Option.bind_eq_some_iff.1 h
    cases h
    simp only [CLib.table] at h'
    obtain ⟨⟨p, ty⟩, hp, h'⟩ := Option.bind_eq_some_iff.1 h'
    obtain ⟨mn, hmn, h'⟩ := Option.bind_eq_some_iff.1 h'
    obtain ⟨mr, hmr, h'⟩ := Option.bind_eq_some_iff.1 h'
    cases h'
    obtain ⟨e1, e2⟩ := place_head hv hk hp
    have ih1 := zero_typed hr hmr
    have ih2 := zero_typed hn hmn
    simp only [zeroStruct, zeroVal, StructTyped, e2]
    cases k with
    | mand =>
      simp only [if_true]
      exact ⟨rfl, fun v hv => (by rw [List.mem_singleton.1 hv]; simp only [ValTyped]; exact ih2), ih1⟩
    | opt => exact ⟨Nat.zero_le 1, by simp, ih1⟩
    | multi a b => exact ⟨Nat.zero_le a, by simp, ih1⟩

end Pfcp

namespace Props

variable {A : Type} [DecidableEq A]

/-- C92: osmo_gtlvs_encode_to_str_buf() prints what the struct in memory contains: the same text, return value and use of the buffer
as if the members were printed one by one, unless that has undefined behaviour. -/
theorem C92_print (names : ValueStrs) {t : PTab A} {size obj : Nat} {m : Mem A} (hf : Fits t.tab size) (hroom : obj + size ≤ m.size)
    (hsmall : m.size < 2 ^ 32) {ss : Struct A} (h : IsStruct t.tab (bytes m obj) ss) (buf : CBuf) :
    gtlvsToStr names ss (some (strSlotsOf names t)) buf = .ub ∨
    gtlvsToStrM names obj m (some (t.strEntries names)) buf = gtlvsToStr names ss (some (strSlotsOf names t)) buf :=
  gtlvsToStrM_ok names hf.list hf.nonempty hroom hsmall (tab_strLaw names t hf.members) h buf

/-- C92: whatever is in the struct, also if its mandatory members have not been set, printing it returns: no assertion fails, and
nothing outside of the struct is read, if the functions that print single IEs return.  Members that have not been set print as zero. -/
theorem C92_returns (names : ValueStrs) {t : PTab A} {size obj : Nat} {m : Mem A} (hf : Fits t.tab size) (hroom : obj + size ≤ m.size)
    (hsmall : m.size < 2 ^ 32) {ss : Struct A} (h : IsStruct t.tab (bytes m obj) ss) (ht : t.Tidies) (buf : CBuf) :
    (∃ buf' rc, gtlvsToStrM names obj m (some (t.strEntries names)) buf = .ok (buf', rc) ∧ buf'.isSome = buf.isSome) ∧
    gtlvsToStrM names obj m (some (t.strEntries names)) buf =
      gtlvsToStr names (asInC t.tab ss) (some (strSlotsOf names t)) buf := by
  obtain ⟨buf', rc, e, hb⟩ := tab_tidy names t (asInC t.tab ss) ht (full_asInC t.tab _ ss h) { buf := buf }
  have e' : gtlvsToStr names (asInC t.tab ss) (some (strSlotsOf names t)) buf = .ok (buf', rc) := e
  rcases C92_print names hf hroom hsmall (isStruct_asInC t.tab _ ss hf.members h) buf with hu | he
  · rw [e'] at hu; cases hu
  · exact ⟨⟨buf', rc, by rw [he, e'], hb⟩, he⟩

/-- C92: where there is no table, as for an unknown message type, nothing is read or printed, and the return value is -ENOTSUP. -/
theorem C92_no_table (names : ValueStrs) {obj : Nat} {m : Mem A} (h : obj < m.size) (buf : CBuf) :
    gtlvsToStrM names obj m none buf = .ok (buf, .error .ENOTSUP) ∧
      gtlvsToStr names ([] : Struct A) none buf = .ok (buf, .error .ENOTSUP) := by
  refine ⟨?_, rfl⟩
  unfold gtlvsToStrM membof
  rw [if_pos (by omega)]
  rfl

/-- C92: likewise for encoding: mandatory members that have not been set are encoded as zero. -/
theorem C92_encode_unset {t : MTab A} {size obj : Nat} {m : Mem A} (hf : Fits t size) (hroom : obj + size ≤ m.size)
    (hsmall : m.size < 2 ^ 32) {ss : Struct A} (h : IsStruct t (bytes m obj) ss) (cfg : Cfg) (b : Msgb) :
    gtlvsEncode cfg (asInC t ss) b (some (slotsOf t)) = .ub ∨
    gtlvsEncodeM cfg obj m b (some t.entries) = gtlvsEncode cfg (asInC t ss) b (some (slotsOf t)) :=
  C89_encode hf hroom hsmall (isStruct_asInC t _ ss hf.members h) cfg b

/-! ### libosmo-pfcp -/

theorem pfcp_ptable {abi : Abi} (ha : Lawful Pfcp.cfg Pfcp.msgDefs Pfcp.structs abi) (left : Pfcp.Left) (lt : LibText) {g env}
    (hg : writeC Pfcp.cfg Pfcp.msgDefs = some g) (hc : compile g.arrays [] = some env) {type : Nat} {tab t}
    (htab : g.getMsgCoding Pfcp.value env type = some tab) (ht : (Pfcp.lib Pfcp.structs abi left).table tab = some t) :
    ∃ f pt, message type = some f ∧ Pfcp.fields tab = some f ∧
        (Pfcp.lib Pfcp.structs abi left).ptable (Pfcp.str lt) tab = some pt ∧ pt.tab = t ∧
        Fits t (abi.size Pfcp.cfg.unionType) ∧ strSlotsOf ieiStrs pt = f.strCodings lt := by
  obtain ⟨g', env', hg', hc', hall⟩ := C77_pfcp
  rw [hg] at hg'; cases hg'
  rw [hc] at hc'; cases hc'
  rcases pfcp_table ha left hg hc type with ⟨hn, hg0⟩ | ⟨f, tab', t', hf, hg1, ht', hfits, hsl⟩
  · rw [hg0] at htab; cases htab
  · rw [hg1] at htab; cases htab
    rw [ht'] at ht; cases ht
    have hty := hall type
    rw [hg1, Option.bind_some, hf] at hty
    have hp := ptable_table (Pfcp.lib Pfcp.structs abi left) (Pfcp.str lt) tab
    rw [ht'] at hp
    obtain ⟨pt, e1, e2⟩ := Option.map_eq_some_iff.1 hp
    exact ⟨f, pt, by rw [← msgFields_eq]; exact hf, hty, e1, e2, hfits, Pfcp.strSlots_fields lt hty e1⟩

/-- C92, for libosmo-pfcp: for every layout of its structs that C allows, osmo_pfcp_ies_encode_to_str() prints the IEs that the
union in memory contains, as `iesToStr` (C68) does. -/
theorem C92_pfcp {abi : Abi} (ha : Lawful Pfcp.cfg Pfcp.msgDefs Pfcp.structs abi) (left : Pfcp.Left) (lt : LibText) {g env}
    (hg : writeC Pfcp.cfg Pfcp.msgDefs = some g) (hc : compile g.arrays [] = some env)
    {m : Mem IeVal} (hsize : m.size = abi.size (lit "union osmo_pfcp_ies")) (hsmall : m.size < 2 ^ 32)
    {type : Nat} {tab t} {ies : Struct IeVal} (htab : g.getMsgCoding Pfcp.value env type = some tab)
    (ht : (Pfcp.lib Pfcp.structs abi left).table tab = some t) (h : IsStruct t (bytes m 0) ies) (buf : CBuf) :
    iesToStr lt type ies buf = .ub ∨
    (Pfcp.lib Pfcp.structs abi left).iesToStr (Pfcp.str lt) ieiStrs (g.getMsgCoding Pfcp.value env type) m buf =
      iesToStr lt type ies buf := by
  obtain ⟨f, pt, hf, -, hp, rfl, hfits, hsl⟩ := pfcp_ptable ha left lt hg hc htab ht
  have hu : abi.size Pfcp.cfg.unionType = m.size := hsize.symm
  rw [hu] at hfits
  have := C92_print ieiStrs (t := pt) hfits (obj := 0) (by omega) hsmall h buf
  rw [hsl] at this
  rw [CLib.iesToStr, htab, Option.bind_some, hp, iesToStr, msgFields_eq, hf]
  exact this

theorem msgToStrM_does (lt : LibText) (msg : PMsg) (ies : StrFn) (h : ∀ buf, Does (iesToStr lt msg.h.type msg.ies buf) (ies buf))
    (buf : CBuf) : Does (msgToStr lt msg buf) (msgToStrM msg ies buf) := by
  unfold msgToStr msgToStrM strFn
  refine Does.bind ?_ fun _ _ => .refl _
  refine (Does.refl _).bind fun sb _ => ?_
  refine (Does.refl _).bind fun sb _ => ?_
  refine (Does.refl _).bind fun sb _ => ?_
  refine (Does.refl _).bind fun sb _ => ?_
  exact (append_does h sb).bind fun sb _ => .refl _

/-- C92, for libosmo-pfcp: osmo_pfcp_msg_to_str_buf() of a message whose union in memory contains IEs of the right types prints the
text of these IEs, of which as much as fits is in the buffer; in particular, no assertion fails. -/
theorem C92_pfcp_message {abi : Abi} (ha : Lawful Pfcp.cfg Pfcp.msgDefs Pfcp.structs abi) (left : Pfcp.Left) (lt : LibText) {g env}
    (hg : writeC Pfcp.cfg Pfcp.msgDefs = some g) (hc : compile g.arrays [] = some env)
    {m : Mem IeVal} (hsize : m.size = abi.size (lit "union osmo_pfcp_ies")) (hsmall : m.size < 2 ^ 32)
    (msg : PMsg) {tab t f} (htab : g.getMsgCoding Pfcp.value env msg.h.type = some tab)
    (ht : (Pfcp.lib Pfcp.structs abi left).table tab = some t) (h : IsStruct t (bytes m 0) msg.ies)
    (hf : message msg.h.type = some f) (hty : StructTyped f msg.ies) :
    PrintsLikeSnprintf (msgToStrM msg ((Pfcp.lib Pfcp.structs abi left).iesToStr (Pfcp.str lt) ieiStrs
      (g.getMsgCoding Pfcp.value env msg.h.type) m)) (msgText lt f msg) := by
  intro w
  obtain ⟨w', e, hp⟩ := C68_message lt msg f hf hty w
  refine ⟨w', ?_, hp⟩
  rcases msgToStrM_does lt msg _ (fun buf => C92_pfcp ha left lt hg hc hsize hsmall htab ht h buf) (some w) with hu | he
  · rw [e] at hu; cases hu
  · rw [he, e]

/-- C92, for libosmo-pfcp: a message that was received prints the text of its IEs: whatever the octets, if they were decoded to a
union that was zero. -/
theorem C92_pfcp_received {abi : Abi} (ha : Lawful Pfcp.cfg Pfcp.msgDefs Pfcp.structs abi) (left : Pfcp.Left) (lt : LibText) {g env}
    (hg : writeC Pfcp.cfg Pfcp.msgDefs = some g) (hc : compile g.arrays [] = some env)
    {m m' : Mem IeVal} (hsize : m.size = abi.size (lit "union osmo_pfcp_ies")) (hsmall : m.size < 2 ^ 32)
    (hz : AllZero (bytes m 0) m.size) (d : DecHdr) (hw : d.tlvLen ≤ d.tlvMem.length) {ies : Struct IeVal} (hd : decodeTlv d = .ok ies)
    (hm : (Pfcp.lib Pfcp.structs abi left).iesDecode (g.getMsgCoding Pfcp.value env d.h.type)
        { cfg := t16l16v, mem := d.tlvMem, srcLen := d.tlvLen } m = .ok m') (msg : PMsg) (hh : msg.h = d.h) (hi : msg.ies = ies) :
    ∃ f, message d.h.type = some f ∧
      PrintsLikeSnprintf (msgToStrM msg ((Pfcp.lib Pfcp.structs abi left).iesToStr (Pfcp.str lt) ieiStrs
        (g.getMsgCoding Pfcp.value env d.h.type) m')) (msgText lt f msg) := by
  have key := C90_pfcp_decode ha left hg hc hsize hsmall hz d
  rw [hd] at key
  obtain ⟨m1, e, ho, tab, t, htab, ht, hst⟩ := key
  rw [hm] at e; cases e
  obtain ⟨f, hf, hs⟩ := C67_decoded_is_well_formed d hw ies hd
  refine ⟨f, hf, ?_⟩
  have := C92_pfcp_message ha left lt hg hc (m := m') (ho.1.trans hsize) (by rw [ho.1]; exact hsmall) msg (tab := tab) (t := t) (f := f)
    (by rw [hh]; exact htab) ht (by rw [hi]; exact hst) (by rw [hh]; exact hf) (by rw [hi]; exact structTyped_of f ies hs)
  rw [hh] at this
  exact this

/-- C92, for libosmo-pfcp: a message that was just allocated, with a union that is zero, can be printed: mandatory IEs print as
zero. -/
theorem C92_pfcp_fresh {abi : Abi} (ha : Lawful Pfcp.cfg Pfcp.msgDefs Pfcp.structs abi) (left : Pfcp.Left) (lt : LibText) {g env}
    (hg : writeC Pfcp.cfg Pfcp.msgDefs = some g) (hc : compile g.arrays [] = some env)
    {m : Mem IeVal} (hsize : m.size = abi.size (lit "union osmo_pfcp_ies")) (hsmall : m.size < 2 ^ 32)
    (hz : AllZero (bytes m 0) m.size) (msg : PMsg) {tab t f} (htab : g.getMsgCoding Pfcp.value env msg.h.type = some tab)
    (ht : (Pfcp.lib Pfcp.structs abi left).table tab = some t) (hf : message msg.h.type = some f) :
    PrintsLikeSnprintf (msgToStrM msg ((Pfcp.lib Pfcp.structs abi left).iesToStr (Pfcp.str lt) ieiStrs
      (g.getMsgCoding Pfcp.value env msg.h.type) m)) (msgText lt f { msg with ies := zeroStruct t }) := by
  obtain ⟨f', pt, hf', hfl, hp, hpt, hfits, hsl⟩ := pfcp_ptable ha left lt hg hc htab ht
  rw [hf] at hf'; cases hf'
  have hu : abi.size Pfcp.cfg.unionType = m.size := hsize.symm
  rw [hu] at hfits
  exact C92_pfcp_message ha left lt hg hc hsize hsmall { msg with ies := zeroStruct t } htab ht
    (isStruct_zero t _ m.size hfits.inside hfits.members hz) hf (Pfcp.zero_typed hfl ht)

/-! ### Concrete cases -/

/-- Print the octets of a value as decimal numbers. -/
def fourText (v : List UInt8) : StrFn := snprintf (v.flatMap fun b => lit "." ++ dec b.toNat)

/-- `exInner`, where b has no function to print. -/
def exInnerStr : PTab (List UInt8) :=
  .cons { ti := { tag := 1 }, kind := .mand, ofs := 0 } (.leaf four (some fourText)) <|
  .cons { ti := { tag := 2 }, kind := .opt, ofs := 8, flagOfs := 4 } (.leaf four none) .nil

/-- `exOuter` -/
def exOuterStr : PTab (List UInt8) :=
  .cons { ti := { tag := 1 }, kind := .mand, ofs := 0 } (.leaf four (some fourText)) <|
  .cons { ti := { tag := 2 }, kind := .opt, ofs := 8, flagOfs := 4 } (.leaf four (some fourText)) <|
  .cons { ti := { tag := 3 }, kind := .multi 2 1, ofs := 12, pitch := 12, countOfs := 36 } (.nested 12 t8l8v false exInnerStr) .nil

theorem exOuterStr_fits : Fits exOuterStr.tab 40 := exOuter_fits

theorem exOuterStr_tidies : exOuterStr.Tidies := by
  simp only [exOuterStr, exInnerStr, PTab.Tidies, PTy.Tidies, Option.some.injEq, reduceCtorEq]
  refine ⟨?_, ?_, ⟨?_, ?_, trivial⟩, trivial⟩
  · rintro f rfl a; exact snprintf_tidy _
  · rintro f rfl a; exact snprintf_tidy _
  · rintro f rfl a; exact snprintf_tidy _
  · intro f hf; cases hf

/-- Names of tags. -/
def exTagNames : ValueStrs := [(1, "one"), (3, "three")]

/-- Is this what is in the buffer then, and returned? -/
def printsB (o : Res (CBuf × Except Errno Nat)) (w : List UInt8) (n : Nat) : Bool :=
  match o with
  | .ok (some w', .ok n') => decide (w' = w) && decide (n' = n)
  | _ => false

/-- The struct at 8 of 64 bytes, as decoded in C88's concrete case, prints like this. -/
example : (match gtlvsDecodeM 8 (fresh t8l8v [3, 3, 1, 1, 7, 1, 1, 9, 3, 5, 2, 1, 5, 1, 0] 15) false (Mem.zero _ 64)
      (some exOuter.entries) with
    | .ok m => printsB (gtlvsToStrM exTagNames 8 m (some (exOuterStr.strEntries exTagNames)) (some (List.replicate 100 1)))
      (lit " 'one'=.9 'three'={ { 'one'=.7 }, { 'one'= 'unknown 0x2'=(enc_to_str_func==NULL) } }" ++ 0 :: List.replicate 15 1) 84
    | _ => false) = true := by decide +kernel

/-- A struct that is zero, to a buffer of six octets; `C92_returns` is about it. -/
example : printsB (gtlvsToStrM exTagNames 0 (Mem.zero _ 40) (some (exOuterStr.strEntries exTagNames)) (some (List.replicate 6 1)))
    (lit " 'one" ++ [0]) 7 = true := by decide +kernel

example : IsStruct exOuterStr.tab (bytes (Mem.zero _ 40) 0) (zeroStruct exOuterStr.tab) :=
  isStruct_zero _ _ 40 exOuterStr_fits.inside exOuterStr_fits.members fun _ _ => rfl

/-- Assertions fail if the struct is smaller than the table says, and also if it is empty, before the table is checked for NULL. -/
theorem C92_too_small : gtlvsToStrM exTagNames 0 (Mem.zero _ 4) (some (exInnerStr.strEntries exTagNames)) none = .abort ∧
    gtlvsToStrM (A := List UInt8) exTagNames 0 (Mem.zero _ 0) none none = .abort := ⟨rfl, rfl⟩

/-- A count that exceeds the array (the application has set it): an error, and nothing behind the array is read. -/
example : (match gtlvsToStrM exTagNames 0 { size := 40, at_ := fun i => if i = 39 then .raw 3 else .raw 0 }
    (some (exOuterStr.strEntries exTagNames)) (some (List.replicate 100 1)) with
    | .ok (_, .error .ENOTSUP) => true
    | _ => false) = true := by decide +kernel

/-- osmo_pfcp_ies_encode_to_str() of the Session Establishment Response that was decoded to the union, on x86-64. -/
def exPrint (type : Nat) (o : List UInt8) (w : List UInt8) : Option (Res (CBuf × Except Errno Nat)) :=
  (writeC Pfcp.cfg Pfcp.msgDefs).bind fun g => (compile g.arrays []).bind fun env =>
  let abi := Pfcp.sysVAbi Pfcp.structs.reverse
  let l := Pfcp.lib Pfcp.structs abi fun _ _ _ _ => .raw 0
  match l.iesDecode (g.getMsgCoding Pfcp.value env type) { cfg := t16l16v, mem := o ++ [0], srcLen := o.length }
      (Mem.zero _ (abi.size (lit "union osmo_pfcp_ies"))) with
  | .ok m => some (l.iesToStr (Pfcp.str exLib) ieiStrs (g.getMsgCoding Pfcp.value env type) m (some w))
  | _ => none

example : (exPrint 51 exEstResp (List.replicate 130 1)).map (fun o => printsB o
    (lit " 'Node ID'=v4:192.0.2.1 'Cause'=Request accepted (success) 'Created PDR'={ { 'PDR ID'=7 }, { 'PDR ID'=9 } }" ++
      0 :: List.replicate 22 1) 107) = some true := by decide +kernel

end Props
end Verif
