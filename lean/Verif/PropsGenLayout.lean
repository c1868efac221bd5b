/-
C90: the generated tables and structs in memory.
-/
import Verif.GenLayoutLemmas
import Verif.PfcpLayout
import Verif.PropsLayout
import Verif.PropsGen2
import Verif.PropsMsg2

namespace Verif
open Spec

namespace Pfcp

/-- The place that a head stands for has its tag and kind. -/
theorem place_head {structs abi left} {h : CHead} {t k p ty} (hv : value h.tag = some t) (hk : kindOf h = some k)
    (hp : (lib structs abi left).place h = some (p, ty)) : p.ti = { tag := t } ∧ p.kind = k := by
  have hin : h.inst = none := by
    unfold kindOf at hk
    split at hk
    · cases hk
    · rename_i hn; simpa using hn
  have hkk : h.kind = some k := by
    unfold kindOf at hk
    rw [if_neg (by simp [hin])] at hk
    exact hk
  unfold CLib.place at hp
  have ht : (lib structs abi left).tagOf h = some { tag := t } := by
    unfold CLib.tagOf
    rw [show (lib structs abi left).value h.tag = some t from hv, hin]; rfl
  rw [ht, hkk] at hp
  simp only [Option.bind_some] at hp
  obtain ⟨s, -, hp⟩ := Option.bind_eq_some_iff.1 hp
  obtain ⟨o, -, hp⟩ := Option.bind_eq_some_iff.1 hp
  obtain ⟨ty', -, hp⟩ := Option.bind_eq_some_iff.1 hp
  cases k with
  | mand => cases hp; exact ⟨rfl, rfl⟩
  | opt =>
    obtain ⟨f, -, hp⟩ := Option.bind_eq_some_iff.1 hp
    cases hp; exact ⟨rfl, rfl⟩
  | multi _ _ =>
    obtain ⟨f, -, hp⟩ := Option.bind_eq_some_iff.1 hp
    cases hp; exact ⟨rfl, rfl⟩

/-- Without offsets, a table of libosmo-pfcp is the one of `Tables`. -/
theorem slots_fields {structs abi left} : ∀ {t : Tab} {f : Fields} {mt : MTab IeVal}, fields t = some f →
    (lib structs abi left).table t = some mt → slotsOf mt = f.codings
  | .nil, f, mt, h, h' => by cases h; cases h'; rfl
  | .func hd s r, f, mt, h, h' => by
    simp only [fields] at h
    obtain ⟨t, hv, h⟩ := Option.bind_eq_some_iff.1 h
    obtain ⟨k, hk, h⟩ := Option.bind_eq_some_iff.1 h
    obtain ⟨fk, hf, h⟩ := Option.bind_eq_some_iff.1 h
    obtain ⟨fr, hr, h⟩ := Option.bind_eq_some_iff.1 h
    cases h
    simp only [CLib.table] at h'
    obtain ⟨⟨p, ty⟩, hp, h'⟩ := Option.bind_eq_some_iff.1 h'
    obtain ⟨fn', hfn, h'⟩ := Option.bind_eq_some_iff.1 h'
    obtain ⟨mr, hmr, h'⟩ := Option.bind_eq_some_iff.1 h'
    cases h'
    obtain ⟨e1, e2⟩ := place_head hv hk hp
    have hfn' : fn left s = some fn' := hfn
    simp only [fn, hf, Option.bind_some] at hfn'
    obtain ⟨ft, -, hfn'⟩ := Option.bind_eq_some_iff.1 hfn'
    cases hfn'
    simp only [slotsOf, slotOf, Fields.codings, Ty.coding, e1, e2, slots_fields hr hmr]
    rfl
  | .nested hd n r, f, mt, h, h' => by
    simp only [fields] at h
    obtain ⟨t, hv, h⟩ := Option.bind_eq_some_iff.1 h
    obtain ⟨k, hk, h⟩ := Option.bind_eq_some_iff.1 h
    obtain ⟨fn', hn, h⟩ := Option.bind_eq_some_iff.1 h
    obtain ⟨fr, hr, h⟩ := Option.bind_eq_some_iff.1 h
    cases h
    simp only [CLib.table] at h'
    obtain ⟨⟨p, ty⟩, hp, h'⟩ := Option.bind_eq_some_iff.1 h'
    obtain ⟨mn, hmn, h'⟩ := Option.bind_eq_some_iff.1 h'
    obtain ⟨mr, hmr, h'⟩ := Option.bind_eq_some_iff.1 h'
    cases h'
    obtain ⟨e1, e2⟩ := place_head hv hk hp
    simp only [slotsOf, slotOf, Fields.codings, Ty.coding, e1, e2, slots_fields hr hmr, slots_fields hn hmn]
    rfl

/-- The structs of libosmo-pfcp. -/
def structs : List CStruct := ((writeH cfg msgDefs).bind fun ss => compileH ss []).getD []

theorem structs_ok : ∃ ss, writeH cfg msgDefs = some ss ∧ compileH ss [] = some structs := by
  obtain ⟨ss, hw⟩ : ∃ ss, writeH cfg msgDefs = some ss := Option.isSome_iff_exists.1 (by decide +kernel)
  have hc : ((writeH cfg msgDefs).bind fun ss => compileH ss []).isSome = true := by decide +kernel
  rw [hw, Option.bind_some] at hc
  obtain ⟨env, hc⟩ := Option.isSome_iff_exists.1 hc
  refine ⟨ss, hw, ?_⟩
  rw [hc]
  simp only [structs, hw, Option.bind_some, hc, Option.getD_some]

theorem typed (left : Left) : Typed cfg msgDefs (fn left) := by
  have : ((leaves msgDefs).all fun x => ((function (x.2.decEnc.getD (nameOf x.1 x.2))).isSome &&
      decide ((fnTypes.find? fun e => lit e.1 = x.2.decEnc.getD (nameOf x.1 x.2)).map (fun e => lit e.2) =
        some (typeOf cfg x.1 x.2)))) = true := by decide +kernel
  simp only [List.all_eq_true, Bool.and_eq_true, decide_eq_true_eq, Option.isSome_iff_exists, Option.map_eq_some_iff] at this
  intro o i h
  obtain ⟨⟨k, hk⟩, e, he, ht⟩ := this _ h
  dsimp only at hk he ht
  exact ⟨{ type := lit e.2, zero := k.zero, left := left k, dec := ieDec k, enc := fun v b => if v.kind = k then ieEnc v b else .ub },
    by simp only [fn, hk, he, Option.bind_some], ht⟩

theorem known : Known cfg msgDefs value := by
  have : ((occs msgDefs).all fun x => (value (cfg.tagPrefix ++ capitals (nameOf x.1 x.2))).isSome &&
      decide (x.1.inst = none) && (decide (x.1.multi = 0) || !x.1.optional)) = true := by decide +kernel
  simp only [List.all_eq_true, Bool.and_eq_true, decide_eq_true_eq, Bool.or_eq_true, Bool.not_eq_true'] at this
  intro o i h
  obtain ⟨⟨h1, h2⟩, h3⟩ := this _ h
  refine ⟨Option.isSome_iff_exists.1 h1, fun inst hi => (by rw [h2] at hi; cases hi), fun ho => ?_⟩
  rcases h3 with h3 | h3
  · exact h3
  · rw [ho] at h3; cases h3

end Pfcp

namespace Props

/-- C90: if the generator and the C compiler accept a protocol definition whose types are used consistently, then for every
layout of structs that C allows, and functions that are for the types of the members, the table of every message fits the union of
all messages: the decoder and the encoder, given this table and a pointer to the union, touch only what the table says, and this
lies inside of the union, at every level of nesting. -/
theorem C90_fits {A : Type} {l : CLib A} {ms : List GMsg} {ss} (hs : Short l.proto ms) (hk : Consistent l.proto ms)
    (hw : writeH l.proto ms = some ss) (hc : compileH ss [] = some l.structs) (ha : Lawful l.proto ms l.structs l.abi)
    (ht : Typed l.proto ms l.fn) (hv : Known l.proto ms l.value) :
    ∀ m ∈ ms, ∃ t, l.table (msgTable l.proto m) = some t ∧ Fits t (l.abi.size (lit "union " ++ l.proto.protoName ++ lit "_ies")) := by
  obtain ⟨h1, h2⟩ := structs_of hs hk hw hc
  have hl : Fine l := ⟨compileH_nodup hc (by simp), ha.apart, ha.inside, ha.bytes⟩
  intro m hm
  obtain ⟨t, e, hr, hf⟩ := table_ok hl m.ies (obj := lit "union " ++ l.proto.protoName ++ lit "_ies") (sub := m.name)
    (st := l.proto.msgType m.name) (hs.inMsg hm)
    ⟨fun o i h => hv o i (List.mem_flatMap.2 ⟨m, hm, h⟩), fun o i h => ht o i (List.mem_flatMap.2 ⟨m, hm, h⟩)⟩
    (fun x hx => h1 x (groups_mem m hm x hx))
    (by
      intro h ho hsub
      rw [CLib.structOf, if_neg (by rw [hsub]; exact (hs.msg m hm).1)]
      refine (if_pos ho).trans ?_
      rw [hsub])
    (h2 m hm) (fun _ h => h)
  refine ⟨t, e, ha.some, ?_, ?_, hf⟩
  · rw [hr]; exact ha.apart _ (membersOf_mem (h2 m hm))
  · rw [hr]
    intro r hrr
    exact Nat.le_trans (ha.inside _ (membersOf_mem (h2 m hm)) r hrr) (ha.union m hm)

theorem get_some {c : GCfg} {ms : List GMsg} {g env} (hi : Identified ms) (hs : Short c ms) (hg : writeC c ms = some g)
    (hc : compile g.arrays [] = some env) {values : Text → Option Nat} {type tab} (h : g.getMsgCoding values env type = some tab) :
    ∃ m ∈ ms, tab = msgTable c m := by
  rw [GenC.getMsgCoding] at h
  obtain ⟨d, hd, hm'⟩ := Option.bind_eq_some_iff.1 h
  obtain ⟨-, -, -, -, hmsgs, -⟩ := writeC_some hg
  rw [hmsgs] at hd
  obtain ⟨m, hmm, rfl⟩ := List.mem_map.1 (List.mem_reverse.1 (List.mem_of_find?_eq_some hd))
  exact ⟨m, hmm, Option.some.inj (hm'.symm.trans (C77_tables hi hs hg hc m hmm))⟩

/-- The table of a message type of libosmo-pfcp, in memory: fits the union of all messages, and is, but for the offsets, the one that
`decodeTlv` and `encodeMsg` are about. -/
theorem pfcp_table {abi : Abi} (ha : Lawful Pfcp.cfg Pfcp.msgDefs Pfcp.structs abi) (left : Pfcp.Left) {g env}
    (hg : writeC Pfcp.cfg Pfcp.msgDefs = some g) (hc : compile g.arrays [] = some env) (type : Nat) :
    (msgFields type = none ∧ g.getMsgCoding Pfcp.value env type = none) ∨
    ∃ f tab t, msgFields type = some f ∧ g.getMsgCoding Pfcp.value env type = some tab ∧
        (Pfcp.lib Pfcp.structs abi left).table tab = some t ∧ Fits t (abi.size Pfcp.cfg.unionType) ∧ slotsOf t = f.codings := by
  obtain ⟨g', env', hg', hc', hall⟩ := C77_pfcp
  rw [hg] at hg'; cases hg'
  rw [hc] at hc'; cases hc'
  have hty := hall type
  have hsome : ∀ m ∈ Pfcp.msgDefs, (Pfcp.fields (msgTable Pfcp.cfg m)).isSome = true := by
    have : (Pfcp.msgDefs.all fun m => (Pfcp.fields (msgTable Pfcp.cfg m)).isSome) = true := by decide +kernel
    simpa only [List.all_eq_true] using this
  cases hm : g.getMsgCoding Pfcp.value env type with
  | none => rw [hm] at hty; exact .inl ⟨hty.symm, rfl⟩
  | some tab =>
    obtain ⟨m, hmm, he⟩ := get_some Pfcp.identified Pfcp.short hg hc hm
    obtain ⟨f, hf⟩ := Option.isSome_iff_exists.1 (hsome m hmm)
    rw [hm, Option.bind_some, he, hf] at hty
    obtain ⟨ss, hw, hcs⟩ := Pfcp.structs_ok
    obtain ⟨t, e, hfits⟩ := C90_fits (l := Pfcp.lib Pfcp.structs abi left) Pfcp.short Pfcp.consistent hw hcs ha (Pfcp.typed left) Pfcp.known m hmm
    have e' : (Pfcp.lib Pfcp.structs abi left).table (msgTable Pfcp.cfg m) = some t := e
    exact .inr ⟨f, tab, t, hty.symm, rfl, by rw [he]; exact e', hfits, Pfcp.slots_fields hf e'⟩

/-- C90, for libosmo-pfcp: for every layout of its structs that C allows, what osmo_pfcp_msg_decode_tlv() does in memory, to a union
that is zero, is what `decodeTlv` computes: it returns the same, writes only to the union, and then the union contains the
decoded IEs, with flags, counts and values at the offsets of their members.  For all message types and octets. -/
theorem C90_pfcp_decode {abi : Abi} (ha : Lawful Pfcp.cfg Pfcp.msgDefs Pfcp.structs abi) (left : Pfcp.Left) {g env}
    (hg : writeC Pfcp.cfg Pfcp.msgDefs = some g) (hc : compile g.arrays [] = some env)
    {m : Mem IeVal} (hsize : m.size = abi.size (lit "union osmo_pfcp_ies")) (hsmall : m.size < 2 ^ 32)
    (hz : AllZero (bytes m 0) m.size) (d : DecHdr) :
    Agrees (0, m.size) m
      (fun m' ies => ∃ tab t, g.getMsgCoding Pfcp.value env d.h.type = some tab ∧
        (Pfcp.lib Pfcp.structs abi left).table tab = some t ∧ IsStruct t (bytes m' 0) ies)
      ((Pfcp.lib Pfcp.structs abi left).iesDecode (g.getMsgCoding Pfcp.value env d.h.type)
        { cfg := t16l16v, mem := d.tlvMem, srcLen := d.tlvLen } m)
      (decodeTlv d) := by
  rcases pfcp_table ha left hg hc d.h.type with ⟨hn, hg0⟩ | ⟨f, tab, t, hf, hg1, ht, hfits, hsl⟩
  · rw [decodeTlv, msgCoding, hn, hg0]
    exact ⟨m, rfl, rfl, fun _ _ => rfl⟩
  · have hu : abi.size Pfcp.cfg.unionType = m.size := hsize.symm
    rw [hu] at hfits
    have := C88_decode hfits (obj := 0) (by omega) hsmall hz { cfg := t16l16v, mem := d.tlvMem, srcLen := d.tlvLen } false
    have he : decodeTlv d = gtlvsDecode { cfg := t16l16v, mem := d.tlvMem, srcLen := d.tlvLen } false (some (slotsOf t)) := by
      rw [decodeTlv, msgCoding, hf, hsl]; rfl
    have he' : (Pfcp.lib Pfcp.structs abi left).iesDecode (g.getMsgCoding Pfcp.value env d.h.type)
        { cfg := t16l16v, mem := d.tlvMem, srcLen := d.tlvLen } m =
        gtlvsDecodeM 0 { cfg := t16l16v, mem := d.tlvMem, srcLen := d.tlvLen } false m (some t.entries) := by
      rw [CLib.iesDecode, hg1, Option.bind_some, ht]; rfl
    rw [he, he']
    cases hd : gtlvsDecode { cfg := t16l16v, mem := d.tlvMem, srcLen := d.tlvLen } false (some (slotsOf t)) with
    | ok v =>
      rw [hd] at this
      obtain ⟨m', e, ho, hp⟩ := this
      exact ⟨m', e, ho, tab, t, hg1, ht, hp⟩
    | err e => rw [hd] at this; exact this
    | abort => rw [hd] at this; exact this
    | ub => rw [hd] at this; exact this
    | diverge => rw [hd] at this; exact this

/-- C90, for libosmo-pfcp: whatever the message type and the octets of the IEs, decoding to a union that is zero returns: no assertion
fails, nothing outside of the union is written, and there is no other undefined behaviour, if a zero octet is somewhere behind the
IEs (see C36). -/
theorem C90_pfcp_returns {abi : Abi} (ha : Lawful Pfcp.cfg Pfcp.msgDefs Pfcp.structs abi) (left : Pfcp.Left) {g env}
    (hg : writeC Pfcp.cfg Pfcp.msgDefs = some g) (hc : compile g.arrays [] = some env)
    {m : Mem IeVal} (hsize : m.size = abi.size (lit "union osmo_pfcp_ies")) (hsmall : m.size < 2 ^ 32)
    (hz : AllZero (bytes m 0) m.size) (type : Nat) (ies rest : List UInt8) (hr : 0 ∈ rest) :
    ∃ m', (Pfcp.lib Pfcp.structs abi left).iesDecode (g.getMsgCoding Pfcp.value env type)
        { cfg := t16l16v, mem := ies ++ rest, srcLen := ies.length } m = .ok m' ∨
      ∃ e, (Pfcp.lib Pfcp.structs abi left).iesDecode (g.getMsgCoding Pfcp.value env type)
        { cfg := t16l16v, mem := ies ++ rest, srcLen := ies.length } m = .err e m' := by
  have key := C90_pfcp_decode ha left hg hc hsize hsmall hz
    { h := { type := type }, isResponse := false, causeAt := none, nodeIdAt := none, tlvMem := ies ++ rest, tlvLen := ies.length, msgLen := 0 }
  dsimp only at key
  have hret : (decodeTlv { h := { type := type }, isResponse := false, causeAt := none, nodeIdAt := none, tlvMem := ies ++ rest
                           tlvLen := ies.length, msgLen := 0 }).Returns := by
    unfold decodeTlv
    rw [C66_message_definitions]
    dsimp only
    cases message type with
    | none => trivial
    | some f =>
      simp only [Option.map_some, gtlvsDecode, Bool.false_eq_true, if_false]
      exact decodeUnordered_returnsWhen t16l16v_lawful f.codings (F := fun r => (0 : UInt8) ∈ r)
        (fun x r h => List.mem_append_right x h) (fun c hc => (f.localWhen c hc).2) ies rest hr
  cases hd : decodeTlv { h := { type := type }, isResponse := false, causeAt := none, nodeIdAt := none, tlvMem := ies ++ rest
                         tlvLen := ies.length, msgLen := 0 } with
  | ok v => rw [hd] at key; obtain ⟨m', e, -⟩ := key; exact ⟨m', .inl e⟩
  | err e => rw [hd] at key; obtain ⟨m', e', -⟩ := key; exact ⟨m', .inr ⟨e, e'⟩⟩
  | abort => rw [hd] at hret; exact hret.elim
  | ub => rw [hd] at hret; exact hret.elim
  | diverge => rw [hd] at hret; exact hret.elim

/-- C90, for libosmo-pfcp: encoding the IEs in the union in memory is encoding the values that it contains. -/
theorem C90_pfcp_encode {abi : Abi} (ha : Lawful Pfcp.cfg Pfcp.msgDefs Pfcp.structs abi) (left : Pfcp.Left) {g env}
    (hg : writeC Pfcp.cfg Pfcp.msgDefs = some g) (hc : compile g.arrays [] = some env)
    {m : Mem IeVal} (hsize : m.size = abi.size (lit "union osmo_pfcp_ies")) (hsmall : m.size < 2 ^ 32)
    {type : Nat} {tab t} {ies : Struct IeVal} (htab : g.getMsgCoding Pfcp.value env type = some tab)
    (ht : (Pfcp.lib Pfcp.structs abi left).table tab = some t) (h : IsStruct t (bytes m 0) ies) (b : Msgb) :
    gtlvsEncode t16l16v ies b (msgCoding type) = .ub ∨
    (Pfcp.lib Pfcp.structs abi left).iesEncode (g.getMsgCoding Pfcp.value env type) m b =
      gtlvsEncode t16l16v ies b (msgCoding type) := by
  rcases pfcp_table ha left hg hc type with ⟨hn, hg0⟩ | ⟨f, tab', t', hf, hg1, ht', hfits, hsl⟩
  · rw [hg0] at htab; cases htab
  · rw [hg1] at htab; cases htab
    rw [ht'] at ht; cases ht
    have hu : abi.size Pfcp.cfg.unionType = m.size := hsize.symm
    rw [hu] at hfits
    have := C89_encode hfits (obj := 0) (by omega) hsmall h t16l16v b
    rw [hsl] at this
    rw [CLib.iesEncode, hg1, Option.bind_some, ht', msgCoding, hf]
    exact this

/-! ### A layout -/

/-- Decide `Lawful`. -/
def lawfulB (c : GCfg) (ms : List GMsg) (structs : List CStruct) (abi : Abi) : Bool :=
  structs.all (fun s =>
    let rs := s.members.flatMap (membRanges abi s.type)
    decide (rs.Pairwise fun x y => x.1 + x.2 ≤ y.1 ∨ y.1 + y.2 ≤ x.1) && rs.all (fun r => decide (r.1 + r.2 ≤ abi.size s.type)) &&
    s.members.all fun m => decide (0 < abi.size m.type)) &&
  ms.all (fun m => decide (abi.size (c.msgType m.name) ≤ abi.size c.unionType)) && decide (0 < abi.size c.unionType)

theorem lawful_of {c ms structs abi} (h : lawfulB c ms structs abi = true) : Lawful c ms structs abi := by
  simp only [lawfulB, Bool.and_eq_true, List.all_eq_true, decide_eq_true_eq] at h
  exact ⟨fun s hs => (h.1.1 s hs).1.1, fun s hs => (h.1.1 s hs).1.2, fun s hs => (h.1.1 s hs).2, h.1.2, h.2⟩

/-- The layout on x86-64 is lawful: C90 is about it. -/
theorem sysV_lawful : Lawful Pfcp.cfg Pfcp.msgDefs Pfcp.structs (Pfcp.sysVAbi Pfcp.structs.reverse) :=
  lawful_of (by decide +kernel)

/-- osmo_pfcp_msg_decode_tlv() for a message of this type, to a zeroed union, on x86-64. -/
def exDecode (type : Nat) (o : List UInt8) : Option (Out (Mem IeVal)) :=
  (writeC Pfcp.cfg Pfcp.msgDefs).bind fun g => (compile g.arrays []).bind fun env =>
  let abi := Pfcp.sysVAbi Pfcp.structs.reverse
  some ((Pfcp.lib Pfcp.structs abi fun _ _ _ _ => .raw 0).iesDecode (g.getMsgCoding Pfcp.value env type)
    { cfg := t16l16v, mem := o ++ [0], srcLen := o.length } (Mem.zero _ (abi.size (lit "union osmo_pfcp_ies"))))

/-- Does the memory have this contents at these offsets? -/
def holdsB (o : Option (Out (Mem IeVal))) (size : Nat) (l : List (Nat × Cell IeVal)) : Bool :=
  match o with
  | some (.ok m) => decide (m.size = size) && l.all fun x => decide (m.at_ x.1 = x.2)
  | _ => false

/-- A Session Establishment Response with Node ID 127.0.0.1, Cause 1 and two Created PDRs. -/
def exEstResp : List UInt8 := [0, 60, 0, 5, 0, 127, 0, 0, 1, 0, 19, 0, 1, 1, 0, 8, 0, 6, 0, 56, 0, 2, 0, 7, 0, 8, 0, 6, 0, 56, 0, 2, 0, 9]

/-- The union has 110600 bytes.  The Node ID is at 0, the Cause at 264, `offending_ie_present` at 268 is false, the IDs of the PDRs are
at 560 and 296 bytes later, and `created_pdr_count` at 10032 is 2. -/
example : holdsB (exDecode 51 exEstResp) 110600
    [(0, .part (.nodeId (.v4 (.inet 0x7f000001 0))) 0), (263, .part (.nodeId (.v4 (.inet 0x7f000001 0))) 263),
     (264, .part (.cause 1) 0), (267, .part (.cause 1) 3), (268, .raw 0), (276, .raw 0),
     (560, .part (.u16 7) 0), (561, .part (.u16 7) 1), (562, .raw 0), (856, .part (.u16 9) 0), (857, .part (.u16 9) 1), (858, .raw 0),
     (10032, .raw 0), (10033, .raw 0), (10034, .raw 0), (10035, .raw 2), (10036, .raw 0)] = true := by
  decide +kernel

/-- The protocol `exShared` (two IEs of the same type, with 4 and 32 `x`), where an `x` has 4 bytes. -/
def exSharedLib (structs : List CStruct) : CLib (List UInt8) where
  proto := exCfg
  structs := structs
  abi :=
    { size := fun t => if t = lit "struct p_ie_x" then 4 else if t = lit "struct s" then 20 else 40
      ofs := fun _ n => if n = lit "x_count" then 16 else if n = lit "b" then 20 else 0 }
  value := fun s => if s = lit "P_IEI_A" then some 1 else if s = lit "P_IEI_B" then some 2 else some 3
  fn := fun _ => some { type := lit "struct p_ie_x", zero := [], left := fun _ _ _ => .raw 0, dec := four.dec, enc := four.enc }
  cfg := t8l8v
  ordered := false

/-- Is it undefined behaviour? -/
def ubB {σ : Type} : Out σ → Bool
  | .ub => true
  | _ => false

theorem ubB_ok {σ : Type} {o : Out σ} (h : ubB o = true) : o = .ub := by
  cases o <;> first | rfl | cases h

/-- C90 does not hold without consistent types (`C78_counterexample`), though everything else is as required: six `x` in `b` make the
decoder write behind the array of 4, over the count, which it then reads. -/
theorem C90_needs_consistent : ∃ g tabs ss structs, writeC exCfg exShared = some g ∧ compile g.arrays [] = some tabs ∧
    writeH exCfg exShared = some ss ∧ compileH ss [] = some structs ∧ Short exCfg exShared ∧
    Lawful exCfg exShared structs (exSharedLib structs).abi ∧ Typed exCfg exShared (exSharedLib structs).fn ∧
    Known exCfg exShared (exSharedLib structs).value ∧
    (exSharedLib structs).iesDecode (tabs.get (lit "ies_in_msg_m"))
      (fresh t8l8v [1, 2, 3, 0, 2, 12, 3, 0, 3, 0, 3, 0, 3, 0, 3, 0, 3, 0] 18) (Mem.zero _ 40) = .ub := by
  obtain ⟨g, hg⟩ : ∃ g, writeC exCfg exShared = some g := Option.isSome_iff_exists.1 (by decide +kernel)
  have hc : ((writeC exCfg exShared).bind fun g => compile g.arrays []).isSome = true := by decide +kernel
  rw [hg, Option.bind_some] at hc
  obtain ⟨tabs, hc⟩ := Option.isSome_iff_exists.1 hc
  have ht := C77_tables (identified_of (by decide +kernel)) (short_of (by decide +kernel)) hg hc _ (List.mem_singleton.2 rfl)
  refine ⟨g, tabs, [⟨lit "struct s", [⟨false, lit "struct p_ie_x", lit "x", 4⟩]⟩,
      ⟨lit "struct p_msg_m", [⟨false, lit "struct s", lit "a", 0⟩, ⟨false, lit "struct s", lit "b", 0⟩]⟩],
    [⟨lit "struct p_msg_m", [⟨false, lit "struct s", lit "a", 0⟩, ⟨false, lit "struct s", lit "b", 0⟩]⟩,
      ⟨lit "struct s", [⟨false, lit "struct p_ie_x", lit "x", 4⟩]⟩], hg, hc, by decide +kernel, by decide +kernel,
    short_of (by decide +kernel), lawful_of (by decide +kernel), ?_, ?_, ?_⟩
  · have : ((leaves exShared).all fun x => decide (lit "struct p_ie_x" = typeOf exCfg x.1 x.2)) = true := by decide +kernel
    simp only [List.all_eq_true, decide_eq_true_eq] at this
    intro o i h
    exact ⟨_, rfl, this _ h⟩
  · have : ((occs exShared).all fun x => decide (x.1.inst = none) && !x.1.optional) = true := by decide +kernel
    simp only [List.all_eq_true, Bool.and_eq_true, decide_eq_true_eq, Bool.not_eq_true'] at this
    intro o i h
    obtain ⟨h1, h2⟩ := this _ h
    refine ⟨?_, fun inst hi => (by rw [h1] at hi; cases hi), fun ho => (by rw [ho] at h2; cases h2)⟩
    simp only [exSharedLib]
    split
    · exact ⟨_, rfl⟩
    · split <;> exact ⟨_, rfl⟩
  · rw [show tabs.get (lit "ies_in_msg_m") = _ from ht]
    exact ubB_ok (by decide +kernel)

end Props
end Verif
