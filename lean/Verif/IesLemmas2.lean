/- Round trip, locality and canonical form of the IE codecs (no property theorems here). -/
import Verif.IesLemmas

namespace Verif
open Verif.Spec

theorem cstr_append {s : List UInt8} (hz : (0 : UInt8) ∉ s) (rest : List UInt8) :
    cstr (s ++ rest) = s ++ cstr rest := by
  induction s with
  | nil => rfl
  | cons c s ih =>
    simp only [List.mem_cons, not_or] at hz
    have hc : c ≠ 0 := fun x => hz.1 x.symm
    have e := ih hz.2
    simp only [cstr] at e
    rw [cstr, List.cons_append, List.takeWhile_cons_of_pos (by simpa using hc), e]; rfl

theorem octet_be (n : Nat) (h : n < 256) : [octet n] = be 1 n := by
  simp [be, Nat.mod_eq_of_lt h]

theorem goodIps_lengths {ip : IpAddrs} (h : GoodIps ip) :
    (part ip.v4Present (addrOctets ip.v4)).length = (if ip.v4Present then 4 else 0) ∧
    (part ip.v6Present (addrOctets ip.v6)).length = (if ip.v6Present then 16 else 0) := by
  obtain ⟨h4, h6⟩ := h
  constructor
  · cases hp : ip.v4Present
    · simp [part]
    · rw [hp] at h4; simpa [part] using (IsV4.octets (by simpa using h4)).2
  · cases hp : ip.v6Present
    · simp [part]
    · rw [hp] at h6; simpa [part] using (IsV6.octets (by simpa using h6)).2

theorem and_mask_lt {v k : Nat} (h : v < 2 ^ k) : v &&& (2 ^ k - 1) = v := by
  rw [Nat.and_two_pow_sub_one_eq_mod, Nat.mod_eq_of_lt h]

theorem puts_wire (v : IeVal) (h : InRange v) : Puts (ieEnc v) (wire v) := by
  cases v with
  | cause v => exact Puts.num 1 v
  | offendingIe v => exact Puts.num 2 v
  | u8 v => exact Puts.num 1 v
  | u16 v => exact Puts.num 2 v
  | u32 v => exact Puts.num 4 v
  | ifaceType v =>
    have h' : v < 64 := h
    have e : v % 256 &&& 0x3f = v := by
      rw [Nat.mod_eq_of_lt (by omega)]; exact and_mask_lt (k := 6) h'
    exact Puts.congr (Puts.num 1 (v % 256 &&& 0x3f)) (by rw [e]; rfl)
  | sourceIface v =>
    have h' : v < 16 := h
    have e : v % 256 &&& 0xf = v := by
      rw [Nat.mod_eq_of_lt (by omega)]; exact and_mask_lt (k := 4) h'
    exact Puts.congr (Puts.num 1 (v % 256 &&& 0xf)) (by rw [e]; rfl)
  | destIface v =>
    have h' : v < 16 := h
    have e : v % 256 &&& 0xf = v := by
      rw [Nat.mod_eq_of_lt (by omega)]; exact and_mask_lt (k := 4) h'
    exact Puts.congr (Puts.num 1 (v % 256 &&& 0xf)) (by rw [e]; rfl)
  | nodeId n =>
    cases n with
    | v4 a =>
      have h' : IsV4 a := h
      simp only [wire, (IsV4.octets h').1]
      exact (Puts.num 1 0).bind (Puts.put _)
    | v6 a =>
      have h' : IsV6 a := h
      simp only [wire, (IsV6.octets h').1]
      exact (Puts.num 1 1).bind (Puts.put _)
    | fqdn s => exact (Puts.num 1 2).bind (Puts.name s)
    | other t => exact h.elim
  | upFeatures bits => exact Puts.put _
  | cpFeatures bits => exact Puts.put _
  | applyAction bits => exact Puts.put _
  | networkInst s => exact Puts.name s
  | apr s =>
    intro b hb
    by_cases e : s.length = 0
    · have : s = [] := List.length_eq_zero_iff.mp e
      subst this; simp [ieEnc, wire]
    · simp only [ieEnc, ne_eq, e, not_false_eq_true, if_true]
      exact Puts.put s b hb
  | fSeid v =>
    obtain ⟨hs, hip⟩ := h
    have key := (Puts.num 1 ((if v.ip.v6Present then 1 else 0) + (if v.ip.v4Present then 2 else 0))).bind
      ((Puts.num 8 v.seid).bind ((Puts.v4 hip.1).bind (Puts.v6 hip.2)))
    refine Puts.congr key ?_
    simp only [wire, List.append_assoc]
    rw [octet_be _ (by cases v.ip.v6Present <;> cases v.ip.v4Present <;> decide)]
    rfl
  | fTeid v =>
    cases v with
    | fixed teid ip =>
      obtain ⟨hs, hip⟩ := h
      have key := (Puts.num 1 (0 ||| ((if ip.v4Present then 1 else 0) + (if ip.v6Present then 2 else 0)))).bind
        ((Puts.num 4 teid).bind ((Puts.v4 hip.1).bind (Puts.v6 hip.2)))
      refine Puts.congr key ?_
      simp only [wire, List.append_assoc]
      rw [octet_be _ (by cases ip.v6Present <;> cases ip.v4Present <;> decide)]
      congr 1
      cases ip.v6Present <;> cases ip.v4Present <;> rfl
    | choose c4 c6 p id =>
      have key := (Puts.num 1 (4 ||| ((if c4 then 1 else 0) + (if c6 then 2 else 0) + (if p then 8 else 0)))).bind
        (Puts.opt p 1 id)
      refine Puts.congr key ?_
      simp only [wire]
      rw [octet_be _ (by cases c4 <;> cases c6 <;> cases p <;> decide)]
      congr 1
      cases c4 <;> cases c6 <;> cases p <;> rfl
  | ohc v =>
    obtain ⟨hl, ha, ht, hip, hp, hc, hs⟩ := h
    have e : ieEnc (.ohc v) = fun b => (b.put v.desc).bind fun b =>
        (b.agree (announces v.desc).teid v.teidPresent (storeBE 4 v.teid)).bind fun b =>
        (b.agree (announces v.desc).v4 v.ip.v4Present (v.ip.v4.toOctets 4)).bind fun b =>
        (b.agree (announces v.desc).v6 v.ip.v6Present (v.ip.v6.toOctets 16)).bind fun b =>
        (b.agree (announces v.desc).port v.portPresent (storeBE 2 v.port)).bind fun b =>
        (b.agree (announces v.desc).cTag v.cTagPresent (storeBE 3 v.cTag)).bind fun b =>
        b.agree (announces v.desc).sTag v.sTagPresent (storeBE 3 v.sTag) := by
      funext b; simp only [ieEnc, encOhc, ohcParts_eq hl]
    rw [e, ha]
    have e4 : part v.ip.v4Present (addrOctets v.ip.v4) = part v.ip.v4Present (v.ip.v4.toOctets 4) := by
      have h4 := hip.1
      cases hh : v.ip.v4Present
      · rfl
      · rw [hh] at h4; rw [(IsV4.octets (by simpa using h4)).1]
    have e6 : part v.ip.v6Present (addrOctets v.ip.v6) = part v.ip.v6Present (v.ip.v6.toOctets 16) := by
      have h6 := hip.2
      cases hh : v.ip.v6Present
      · rfl
      · rw [hh] at h6; rw [(IsV6.octets (by simpa using h6)).1]
    simp only [wire, e4, e6, be_eq, List.append_assoc]
    exact (Puts.put _).bind ((Puts.agree _ _).bind ((Puts.agree _ _).bind ((Puts.agree _ _).bind
      ((Puts.agree _ _).bind ((Puts.agree _ _).bind (Puts.agree _ _))))))
  | ohr v => exact (Puts.num 1 v.desc).bind (Puts.opt v.extPresent 1 v.ext)
  | ueIp v =>
    obtain ⟨hip, hd, hp⟩ := h
    have key := (Puts.num 1 (0
        ||| (if v.plenPresent then 64 else 0)
        ||| (if v.chv6 then 32 else 0)
        ||| (if v.chv4 then 16 else 0)
        ||| (if v.delegPresent then 8 else 0)
        ||| (if v.isDest then 4 else 0)
        ||| (if v.ip.v4Present then 2 else 0)
        ||| (if v.ip.v6Present then 1 else 0))).bind
      ((Puts.v4 hip.1).bind ((Puts.v6 hip.2).bind
        ((Puts.opt v.delegPresent 1 v.deleg).bind (Puts.opt v.plenPresent 1 v.plen))))
    refine Puts.congr key ?_
    simp only [wire, List.append_assoc]
    rw [octet_be _ (by
      cases v.plenPresent <;> cases v.chv6 <;> cases v.chv4 <;> cases v.delegPresent <;> cases v.isDest
        <;> cases v.ip.v4Present <;> cases v.ip.v6Present <;> decide)]
    congr 1
    cases v.plenPresent <;> cases v.chv6 <;> cases v.chv4 <;> cases v.delegPresent <;> cases v.isDest
        <;> cases v.ip.v4Present <;> cases v.ip.v6Present <;> rfl

theorem decBits_full {k : Nat} {bits rest : List UInt8} (h : bits.length = k) :
    decBits k ⟨bits ++ rest, bits.length⟩ = .ok bits := by
  simp [decBits, ← h, rdN]

theorem decAtLeast_be {k v : Nat} {rest : List UInt8} (h : v < 256 ^ k) :
    decAtLeast k ⟨be k v ++ rest, k⟩ = .ok v := by
  simp [decAtLeast, Cur.num_be h (Nat.le_refl k)]

theorem decExact_be {k v : Nat} {rest : List UInt8} (h : v < 256 ^ k) :
    decExact k ⟨be k v ++ rest, k⟩ = .ok v := by
  simp [decExact, Cur.num_be h (Nat.le_refl k)]

theorem dec_wire (v : IeVal) (h : InRange v) (rest : List UInt8) (hr : v.kind = .apr → 0 ∈ rest) :
    ieDec v.kind (wire v ++ rest) (wire v).length = .ok v := by
  cases v with
  | cause v => simp [ieDec, IeVal.kind, wire, decExact_be (k := 1) (v := v) (by simpa [InRange] using h)]
  | offendingIe v =>
    simp [ieDec, IeVal.kind, wire, decExact_be (k := 2) (v := v) (by simpa [InRange] using h)]
  | u8 v => simp [ieDec, IeVal.kind, wire, decAtLeast_be (k := 1) (v := v) (by simpa [InRange] using h)]
  | u16 v => simp [ieDec, IeVal.kind, wire, decAtLeast_be (k := 2) (v := v) (by simpa [InRange] using h)]
  | u32 v => simp [ieDec, IeVal.kind, wire, decAtLeast_be (k := 4) (v := v) (by simpa [InRange] using h)]
  | ifaceType v =>
    have h' : v < 64 := h
    simp [ieDec, IeVal.kind, wire, decAtLeast_be (k := 1) (v := v) (by omega)]
    exact and_mask_lt (k := 6) h'
  | sourceIface v =>
    have h' : v < 16 := h
    simp [ieDec, IeVal.kind, wire, decAtLeast_be (k := 1) (v := v) (by omega)]
    exact and_mask_lt (k := 4) h'
  | destIface v =>
    have h' : v < 16 := h
    simp [ieDec, IeVal.kind, wire, decAtLeast_be (k := 1) (v := v) (by omega)]
    exact and_mask_lt (k := 4) h'
  | nodeId n =>
    cases n with
    | v4 a =>
      obtain ⟨n, hn, rfl⟩ := h
      simp only [ieDec, IeVal.kind, wire, decNodeId, addrOctets, List.cons_append, List.nil_append,
        List.length_cons, be_length]
      rw [show (0 : UInt8) = octet 0 from rfl, Cur.num_octet (by omega) (by omega)]
      simp [Cur.num_be (k := 4) (v := n) (by omega) (Nat.le_refl _)]
    | v6 a =>
      obtain ⟨n, hn, rfl⟩ := h
      simp only [ieDec, IeVal.kind, wire, decNodeId, addrOctets, List.cons_append, List.nil_append,
        List.length_cons, be_length]
      rw [show (1 : UInt8) = octet 1 from rfl, Cur.num_octet (by omega) (by omega)]
      simp [Cur.num_be (k := 16) (v := n) (by omega) (Nat.le_refl _)]
    | fqdn s =>
      simp only [ieDec, IeVal.kind, wire, decNodeId, List.cons_append, List.nil_append,
        List.length_cons]
      rw [show (2 : UInt8) = octet 2 from rfl, Cur.num_octet (by omega) (by omega)]
      simp [decName_wire h]
    | other t => exact h.elim
  | upFeatures bits => simp [ieDec, IeVal.kind, wire, decBits_full (k := 6) h]
  | cpFeatures bits =>
    have h' : bits.length = 1 := h
    simp [ieDec, IeVal.kind, wire, Cur.raw_append h' (Nat.le_of_eq h'.symm)]
  | applyAction bits =>
    have h' : bits.length = 2 := h
    simp only [ieDec, IeVal.kind, wire, decBits_full (k := 2) h]
    simp [h']
  | networkInst s => simp [ieDec, IeVal.kind, wire, decName_wire h]
  | apr s =>
    obtain ⟨hl, hz⟩ := h
    have hr := hr rfl
    have e0 : readCStr (s ++ rest) = .ok (cstr (s ++ rest)) := by simp [readCStr, hr]
    simp only [ieDec, IeVal.kind, wire, decApr, e0, Res.bind_ok']
    rw [cstr_append hz, show min 256 (s.length + 1) - 1 = s.length by omega]
    simp
  | fSeid v =>
    obtain ⟨hs, hip⟩ := h
    have hL := goodIps_lengths hip
    obtain ⟨hL4, hL6⟩ := hL
    simp only [ieDec, IeVal.kind, wire, decFSeid, List.append_assoc, List.cons_append, List.nil_append,
        List.length_cons, List.length_append, be_length]
    rw [if_neg (by omega), Cur.num_octet (by cases v.ip.v6Present <;> cases v.ip.v4Present <;> decide) (by omega)]
    simp only [Res.bind_ok']
    rw [Cur.num_be (by simpa using hs) (by omega)]
    simp only [Res.bind_ok']
    have f1 : flag (bit 0 v.ip.v6Present + bit 1 v.ip.v4Present) 1 = v.ip.v6Present := by
      cases v.ip.v6Present <;> cases v.ip.v4Present <;> rfl
    have f2 : flag (bit 0 v.ip.v6Present + bit 1 v.ip.v4Present) 2 = v.ip.v4Present := by
      cases v.ip.v6Present <;> cases v.ip.v4Present <;> rfl
    rw [f1, f2, Cur.v4_part hip.1 (by omega)]
    simp only [Res.bind_ok']
    rw [Cur.v6_part hip.2 (by omega)]
    rfl
  | fTeid v =>
    cases v with
    | fixed teid ip =>
      obtain ⟨hs, hip⟩ := h
      obtain ⟨hL4, hL6⟩ := goodIps_lengths hip
      simp only [ieDec, IeVal.kind, wire, decFTeid, List.append_assoc, List.cons_append, List.nil_append,
          List.length_cons, List.length_append, be_length]
      rw [Cur.num_octet (by cases ip.v6Present <;> cases ip.v4Present <;> decide) (by omega)]
      simp only [Res.bind_ok']
      have f1 : flag (bit 0 ip.v4Present + bit 1 ip.v6Present) 1 = ip.v4Present := by
        cases ip.v6Present <;> cases ip.v4Present <;> rfl
      have f2 : flag (bit 0 ip.v4Present + bit 1 ip.v6Present) 2 = ip.v6Present := by
        cases ip.v6Present <;> cases ip.v4Present <;> rfl
      have f4 : flag (bit 0 ip.v4Present + bit 1 ip.v6Present) 4 = false := by
        cases ip.v6Present <;> cases ip.v4Present <;> rfl
      rw [f1, f2, f4]
      simp only [Bool.false_eq_true, not_false_eq_true, if_true]
      rw [Cur.num_be (by simpa using hs) (by omega)]
      simp only [Res.bind_ok']
      rw [Cur.v4_part hip.1 (by omega)]
      simp only [Res.bind_ok']
      rw [Cur.v6_part hip.2 (by omega)]
      rfl
    | choose c4 c6 p id =>
      simp only [ieDec, IeVal.kind, wire, decFTeid, List.cons_append, List.nil_append,
          List.length_cons]
      rw [Cur.num_octet (by cases c4 <;> cases c6 <;> cases p <;> decide) (by omega)]
      simp only [Res.bind_ok']
      have f1 : flag (bit 0 c4 + bit 1 c6 + 4 + bit 3 p) 1 = c4 := by
        cases c4 <;> cases c6 <;> cases p <;> rfl
      have f2 : flag (bit 0 c4 + bit 1 c6 + 4 + bit 3 p) 2 = c6 := by
        cases c4 <;> cases c6 <;> cases p <;> rfl
      have f4 : flag (bit 0 c4 + bit 1 c6 + 4 + bit 3 p) 4 = true := by
        cases c4 <;> cases c6 <;> cases p <;> rfl
      have f8 : flag (bit 0 c4 + bit 1 c6 + 4 + bit 3 p) 8 = p := by
        cases c4 <;> cases c6 <;> cases p <;> rfl
      rw [f1, f2, f4, f8]
      simp only [not_true_eq_false, if_false]
      rw [Cur.opt_part (k := 1) (by rfl) h (by omega)]
      rfl
  | ohc v =>
    obtain ⟨hl, ha, ht, hip, hp, hc, hs⟩ := h
    obtain ⟨hL4, hL6⟩ := goodIps_lengths hip
    simp only [ieDec, IeVal.kind, wire, decOhc, List.append_assoc, List.length_append]
    rw [Cur.raw_append hl (by omega)]
    simp only [Res.bind_ok', ohcParts_eq hl, ha, present]
    rw [Cur.opt_part (by rfl) ht (by omega)]
    simp only [Res.bind_ok']
    rw [Cur.v4_part hip.1 (by omega)]
    simp only [Res.bind_ok']
    rw [Cur.v6_part hip.2 (by omega)]
    simp only [Res.bind_ok']
    rw [Cur.opt_part (by rfl) hp (by omega)]
    simp only [Res.bind_ok']
    rw [Cur.opt_part (by rfl) hc (by omega)]
    simp only [Res.bind_ok']
    rw [Cur.opt_part (by rfl) hs (by omega)]
    rfl
  | ohr v =>
    obtain ⟨hd, he⟩ := h
    simp only [ieDec, IeVal.kind, wire, decOhr, List.append_assoc, List.length_append, be_length]
    rw [Cur.num_be (by simpa using hd) (by omega)]
    simp only [Res.bind_ok']
    obtain ⟨d, p, x⟩ := v
    cases p
    · have he : x = 0 := by simpa [GoodNum] using he
      simp [part, he]
    · have he : x < 256 := by simpa [GoodNum] using he
      simp [part, Cur.num_be (k := 1) (v := x) (by simpa using he) (Nat.le_refl 1)]
  | ueIp v =>
    obtain ⟨hip, hd, hp⟩ := h
    obtain ⟨hL4, hL6⟩ := goodIps_lengths hip
    simp only [ieDec, IeVal.kind, wire, decUeIp, List.append_assoc, List.cons_append, List.nil_append,
        List.length_cons, List.length_append]
    generalize hF : (bit 0 v.ip.v6Present + bit 1 v.ip.v4Present + bit 2 v.isDest + bit 3 v.delegPresent
        + bit 4 v.chv4 + bit 5 v.chv6 + bit 6 v.plenPresent) = F
    have facts : F < 256 ∧ flag F 1 = v.ip.v6Present ∧ flag F 2 = v.ip.v4Present ∧ flag F 4 = v.isDest
        ∧ flag F 8 = v.delegPresent ∧ flag F 16 = v.chv4 ∧ flag F 32 = v.chv6 ∧ flag F 64 = v.plenPresent := by
      subst hF
      cases v.plenPresent <;> cases v.chv6 <;> cases v.chv4 <;> cases v.delegPresent <;> cases v.isDest
        <;> cases v.ip.v4Present <;> cases v.ip.v6Present <;> decide
    obtain ⟨fl, f1, f2, f4, f8, f16, f32, f64⟩ := facts
    rw [Cur.num_octet fl (by omega)]
    simp only [Res.bind_ok', f1, f2, f4, f8, f16, f32, f64]
    rw [Cur.v4_part hip.1 (by omega)]
    simp only [Res.bind_ok']
    rw [Cur.v6_part hip.2 (by omega)]
    simp only [Res.bind_ok']
    rw [Cur.opt_part (by rfl) hd (by omega)]
    simp only [Res.bind_ok']
    rw [Cur.opt_part (by rfl) hp (by omega)]
    rfl

end Verif
