/-
Properties C35 to C45: IE values.  Statements are in terms of Verif.Spec (SpecIes.lean).
-/
import Verif.IesLemmas4

namespace Verif.Props
open Verif Verif.Spec

/-! ### C35: round trips -/

/-- C35, encoding: every IE encoder appends exactly the octets that carry the value. -/
theorem C35_encodes (v : IeVal) (h : InRange v) (b : Msgb)
    (room : b.data.length + (wire v).length ≤ b.cap) :
    ieEnc v b = .ok { b with data := b.data ++ wire v } := puts_wire v h b room

/-- C35, decoding: every IE decoder returns the value that the octets carry, whatever follows in
memory - but the decoder of Activate Predefined Rules needs a zero octet to follow somewhere. -/
theorem C35_decodes (v : IeVal) (h : InRange v) (rest : List UInt8) (hr : v.kind = .apr → 0 ∈ rest) :
    ieDec v.kind (wire v ++ rest) (wire v).length = .ok v := dec_wire v h rest hr

/-- C35 (the round trip as such). -/
theorem C35_round_trip (v : IeVal) (h : InRange v) (cap : Nat) (room : (wire v).length ≤ cap) (rest : List UInt8)
    (hr : v.kind = .apr → 0 ∈ rest) :
    ∃ b, ieEnc v { cap := cap, data := [] } = .ok b ∧ ieDec v.kind (b.data ++ rest) b.data.length = .ok v :=
  ⟨_, C35_encodes v h _ (by simpa using room), by simpa using dec_wire v h rest hr⟩

/-- An F-TEID with both addresses, a UE IP address and a name are in range. -/
example : InRange (.fTeid (.fixed 0xdeadbeef
    { v4Present := true, v4 := .inet 0x7f000001 0, v6Present := true, v6 := .inet6 (2 ^ 127 + 1) 0 })) :=
  ⟨by decide, ⟨_, by decide, rfl⟩, ⟨_, by decide, rfl⟩⟩
example : InRange (.nodeId (.fqdn [97, 98, 46, 99])) :=
  ⟨by decide, by decide, .inr (by decide)⟩
example : wire (.nodeId (.fqdn [97, 98, 46, 99])) = [2, 2, 97, 98, 1, 99] := by decide
example : InRange (.ohc
    { desc := [1, 0], teidPresent := true, teid := 7, ip := { v4Present := true, v4 := .inet 1 0 } }) :=
  ⟨rfl, by decide, (by decide : 7 < 2 ^ 32), ⟨⟨_, by decide, rfl⟩, rfl⟩, rfl, rfl, rfl⟩

/-! ### C36: decoders stay inside the IE -/

/-- C36 is false of `osmo_pfcp_dec_activate_predefined_rules()`: it takes `strlen()` of a value that
has no terminating NUL, thus reads behind the IE, and behind the buffer if no NUL comes. -/
theorem C36_counterexample : ieDec .apr [97, 98] 2 = .ub := by decide

/-- C36 for all other decoders: the result depends on the octets of the IE only - none behind it is
read - and the decoder returns. -/
theorem C36_inside_partial (k : IeKind) (hk : k ≠ .apr) (v rest : List UInt8) :
    ieDec k (v ++ rest) v.length = ieDec k v v.length ∧ (ieDec k v v.length).Returns :=
  ieDec_local k hk v rest

/-- C36 for Activate Predefined Rules: if a zero octet follows in memory, the decoder returns a
string that depends on the octets of the IE only (at most 255 octets before a NUL). -/
theorem C36_apr_partial (v rest : List UInt8) (h : 0 ∈ rest) :
    ieDec .apr (v ++ rest) v.length = .ok (.apr ((cstr v).take 255)) := by
  have e0 : readCStr (v ++ rest) = .ok (cstr (v ++ rest)) := by simp [readCStr, h]
  simp only [ieDec, decApr, e0, Res.bind_ok']
  congr 2
  by_cases hz : (0 : UInt8) ∈ v
  · have e : cstr (v ++ rest) = cstr v ∧ (cstr v).length < v.length := by
      clear e0
      induction v with
      | nil => simp at hz
      | cons c v ih =>
        simp only [cstr, List.cons_append] at ih ⊢
        by_cases hc : c = 0
        · simp [hc]
        · rw [List.takeWhile_cons_of_pos (by simpa using hc), List.takeWhile_cons_of_pos (by simpa using hc)]
          have hz' : (0 : UInt8) ∈ v := by
            rcases List.mem_cons.mp hz with h | h
            · exact absurd h.symm hc
            · exact h
          have := ih hz'
          exact ⟨by rw [this.1], by simp only [List.length_cons]; omega⟩
    rw [e.1]
    by_cases hl : v.length ≤ 255
    · rw [List.take_of_length_le (by omega), List.take_of_length_le (by omega)]
    · rw [show min 256 (v.length + 1) - 1 = 255 by omega]
  · rw [cstr_append hz, cstr_of_noNul hz]
    by_cases hl : v.length ≤ 255
    · rw [show min 256 (v.length + 1) - 1 = v.length by omega, List.take_left, List.take_of_length_le (by omega)]
    · rw [show min 256 (v.length + 1) - 1 = 255 by omega, List.take_append_of_le_length (by omega)]

/-- C36, truncation: an IE shorter than what its own leading octets announce is refused. -/
theorem C36_too_short (k : IeKind) (v : List UInt8) (h : v.length < needs k v) :
    ∃ e, ieDec k v v.length = .err e := by
  by_cases hk : AtLeast k
  · exact ⟨_, (dec_needs k hk v).1 h⟩
  · cases k <;> simp only [AtLeast, not_true_eq_false] at hk
    · simp only [needs] at h
      exact ⟨.EINVAL, by simp only [ieDec, decExact]; rw [if_pos (by omega)]; rfl⟩
    · simp only [needs] at h
      exact ⟨.EINVAL, by simp only [ieDec, decExact]; rw [if_pos (by omega)]; rfl⟩
    · cases v with
      | nil => exact ⟨.EINVAL, by simp [ieDec, decNodeId, Cur.num, Cur.raw]⟩
      | cons b v =>
        have h1 := num1_cons b v []
        simp only [curAt, List.append_nil] at h1
        simp only [ieDec, decNodeId, h1, Res.bind_ok']
        simp only [needs, List.getElem?_cons_zero, Option.some.injEq, List.length_cons] at h
        by_cases h0 : b = 0
        · subst h0
          simp only [if_true] at h
          exact ⟨.EINVAL, by rw [if_pos (by rfl), if_pos (by omega)]; rfl⟩
        · have h0' : b.toNat ≠ 0 := fun e => h0 (UInt8.toNat_inj.mp (by simpa using e))
          rw [if_neg h0] at h
          rw [if_neg h0']
          by_cases h1 : b = 1
          · subst h1
            simp only [if_true] at h
            exact ⟨.EINVAL, by rw [if_pos (by rfl), if_pos (by omega)]; rfl⟩
          · have h1' : b.toNat ≠ 1 := fun e => h1 (UInt8.toNat_inj.mp (by simpa using e))
            rw [if_neg h1] at h
            rw [if_neg h1']
            by_cases h2 : b.toNat = 2
            · exact ⟨.ERANGE, by rw [if_pos h2, decName, if_pos (by left; dsimp only; omega)]; rfl⟩
            · exact ⟨.EINVAL, by rw [if_neg h2]; rfl⟩
    · simp only [needs] at h
      exact ⟨.ERANGE, by simp only [ieDec, decName]; rw [if_pos (by omega)]; rfl⟩
    · simp [needs] at h

/-- C36, the other direction: an IE that is as long as it announces is accepted (all IEs whose
format has neither a fixed total length nor a name in it). -/
theorem C36_long_enough (k : IeKind)
    (hk : k ∉ [IeKind.cause, .offendingIe, .nodeId, .networkInst, .apr]) (v : List UInt8)
    (h : needs k v ≤ v.length) : ∃ x, ieDec k v v.length = .ok x :=
  (dec_needs k (by cases k <;> simp_all [AtLeast]) v).2 h

/-- An F-SEID with IPv4 flag that lacks one octet of the address; one that has it. -/
example : ([2, 0, 0, 0, 0, 0, 0, 0, 1, 127, 0, 0] : List UInt8).length
    < needs .fSeid [2, 0, 0, 0, 0, 0, 0, 0, 1, 127, 0, 0] := by decide
example : needs .fSeid [2, 0, 0, 0, 0, 0, 0, 0, 1, 127, 0, 0, 1] = 13 := by decide

/-! ### C37: decoding is canonicalising -/

/-- C37: for every IE but names, a decoded value can be encoded, and decodes to itself again. -/
theorem C37_canonical (k : IeKind) (p : List UInt8) (n : Nat) (v : IeVal) (h : ieDec k p n = .ok v)
    (noName : k ≠ .networkInst ∧ (∀ s, v ≠ .nodeId (.fqdn s))) :
    v.kind = k ∧ InRange v ∧
    (∀ b : Msgb, b.data.length + (wire v).length ≤ b.cap →
      ieEnc v b = .ok { b with data := b.data ++ wire v }) ∧
    (∀ rest, 0 ∈ rest → ieDec k (wire v ++ rest) (wire v).length = .ok v) := by
  obtain ⟨hk, hv⟩ := dec_inRange k p n v h
  have hr : InRange v := by
    rcases hv with hv | ⟨s, rfl⟩ | ⟨s, rfl⟩
    · exact hv
    · exact absurd hk.symm (by simpa [IeVal.kind] using noName.1)
    · exact absurd rfl (noName.2 s)
  subst hk
  exact ⟨rfl, hr, fun b hb => puts_wire v hr b hb, fun rest hz => dec_wire v hr rest fun _ => hz⟩

/-- Spare bits of a Source Interface and surplus octets are dropped. -/
example : ieDec .sourceIface [0xf3, 7] 2 = .ok (.sourceIface 3) ∧ wire (.sourceIface 3) = [3] := by decide

/-! ### C38: Outer Header Creation -/

/-- C38, encoder: it succeeds exactly if what is present is what the description announces, and
fails with EINVAL otherwise. -/
theorem C38_encoder (v : Ohc) (hl : v.desc.length = 2) (b : Msgb) (room : b.data.length + 34 ≤ b.cap) :
    (announces v.desc = present v → ∃ b', ieEnc (.ohc v) b = .ok b') ∧
    (announces v.desc ≠ present v → ∃ b', ieEnc (.ohc v) b = .err .EINVAL b') := by
  have step (p q : Bool) (o : List UInt8) (m : Nat) (b : Msgb) (hb : b.data.length + (o.length + m) ≤ b.cap) :
      (p = q ∧ ∃ b', b.agree p q o = .ok b' ∧ b'.data.length + m ≤ b'.cap) ∨
      (p ≠ q ∧ b.agree p q o = .err .EINVAL b) := by
    by_cases e : p = q
    · left
      subst e
      refine ⟨rfl, ?_⟩
      cases p
      · exact ⟨b, by simp [Msgb.agree], by omega⟩
      · exact ⟨{ b with data := b.data ++ o }, by simp [Msgb.agree]; exact Puts.put o b (by omega), by simp; omega⟩
    · right; exact ⟨e, by simp [Msgb.agree, e]⟩
  have len (l : Nat) (a : Sockaddr) (h : 4 ≤ l) : (a.toOctets l).length = l := by
    cases a <;> simp only [Sockaddr.toOctets]
    · simp
    · split <;> simp only [List.length_append, List.length_replicate, storeBE_length] <;> omega
    · split <;> simp only [List.length_append, List.length_replicate, storeBE_length] <;> omega
    · simp
  simp only [ieEnc, encOhc]
  rw [show b.put v.desc = .ok { b with data := b.data ++ v.desc } from Puts.put v.desc b (by omega)]
  simp only [Out.bind_ok, ohcParts_eq hl]
  have hne : ∀ {x : Bool} {y : Bool} (f : OhcParts → Bool), f (announces v.desc) = x → f (present v) = y → x ≠ y →
      announces v.desc ≠ present v := fun f hx hy hxy he => hxy (by rw [← hx, ← hy, he])
  have fail {p : Prop} {r : Out Msgb} {b' : Msgb} (hn : announces v.desc ≠ present v) (e : r = .err .EINVAL b') :
      (announces v.desc = present v → p) ∧ (announces v.desc ≠ present v → ∃ b', r = .err .EINVAL b') :=
    ⟨fun h => absurd h hn, fun _ => ⟨b', e⟩⟩
  rcases step (announces v.desc).teid v.teidPresent (storeBE 4 v.teid) 28 { b with data := b.data ++ v.desc }
    (by simp only [List.length_append, storeBE_length]; omega) with ⟨e1, b1, h1, r1⟩ | ⟨e1, h1⟩
  rotate_left
  · exact fail (hne OhcParts.teid rfl rfl e1) (by rw [h1]; rfl)
  rw [h1]; simp only [Out.bind_ok]
  rcases step (announces v.desc).v4 v.ip.v4Present (v.ip.v4.toOctets 4) 24 b1
    (by rw [len 4 _ (by omega)]; omega) with ⟨e2, b2, h2, r2⟩ | ⟨e2, h2⟩
  rotate_left
  · exact fail (hne OhcParts.v4 rfl rfl e2) (by rw [h2]; rfl)
  rw [h2]; simp only [Out.bind_ok]
  rcases step (announces v.desc).v6 v.ip.v6Present (v.ip.v6.toOctets 16) 8 b2
    (by rw [len 16 _ (by omega)]; omega) with ⟨e3, b3, h3, r3⟩ | ⟨e3, h3⟩
  rotate_left
  · exact fail (hne OhcParts.v6 rfl rfl e3) (by rw [h3]; rfl)
  rw [h3]; simp only [Out.bind_ok]
  rcases step (announces v.desc).port v.portPresent (storeBE 2 v.port) 6 b3
    (by simp only [storeBE_length]; omega) with ⟨e4, b4, h4, r4⟩ | ⟨e4, h4⟩
  rotate_left
  · exact fail (hne OhcParts.port rfl rfl e4) (by rw [h4]; rfl)
  rw [h4]; simp only [Out.bind_ok]
  rcases step (announces v.desc).cTag v.cTagPresent (storeBE 3 v.cTag) 3 b4
    (by simp only [storeBE_length]; omega) with ⟨e5, b5, h5, r5⟩ | ⟨e5, h5⟩
  rotate_left
  · exact fail (hne OhcParts.cTag rfl rfl e5) (by rw [h5]; rfl)
  rw [h5]; simp only [Out.bind_ok]
  rcases step (announces v.desc).sTag v.sTagPresent (storeBE 3 v.sTag) 0 b5
    (by simp only [storeBE_length]; omega) with ⟨e6, b6, h6, r6⟩ | ⟨e6, h6⟩
  rotate_left
  · exact fail (hne OhcParts.sTag rfl rfl e6) h6
  refine ⟨fun _ => ⟨b6, h6⟩, fun hn => absurd ?_ hn⟩
  have : announces v.desc = ⟨(announces v.desc).teid, (announces v.desc).v4, (announces v.desc).v6,
    (announces v.desc).port, (announces v.desc).cTag, (announces v.desc).sTag⟩ := rfl
  rw [this, e1, e2, e3, e4, e5, e6]; rfl

/-- Both cases occur. -/
example : announces [0x41, 0] = present
    { desc := [0x41, 0], teidPresent := true, ip := { v4Present := true }, cTagPresent := true } := by decide
example : announces [0x41, 0] ≠ present { desc := [0x41, 0], teidPresent := true } := by decide

theorem raw_inv {k : Nat} {v rest : List UInt8} {o : List UInt8} {c : Cur}
    (h : (curAt v rest).raw k = .ok (o, c)) : ∃ v', c = curAt v' rest ∧ v = o ++ v' ∧ o.length = k := by
  rw [raw_curAt] at h
  split at h
  · simp at h
  · simp only [Res.ok.injEq, Prod.mk.injEq] at h
    obtain ⟨rfl, rfl⟩ := h
    exact ⟨_, rfl, (List.take_append_drop k v).symm, by simp; omega⟩

theorem num_inv {k : Nat} {v rest : List UInt8} {a : Nat} {c : Cur}
    (h : (curAt v rest).num k = .ok (a, c)) : ∃ v', c = curAt v' rest ∧ v = be k a ++ v' := by
  obtain ⟨⟨o, c1⟩, h1, h2⟩ := Res.bind_eq_ok h
  obtain ⟨v', rfl, rfl, ho⟩ := raw_inv h1
  simp only [Res.ok.injEq, Prod.mk.injEq] at h2
  obtain ⟨rfl, rfl⟩ := h2
  exact ⟨v', rfl, by rw [be_eq, storeBE_loadBE' ho]⟩

theorem opt_inv {p : Bool} {k : Nat} {v rest : List UInt8} {a : Nat} {c : Cur}
    (h : (curAt v rest).opt p k = .ok (a, c)) : ∃ v', c = curAt v' rest ∧ v = part p (be k a) ++ v' := by
  cases p
  · simp only [Cur.opt, Bool.false_eq_true, if_false, Res.ok.injEq, Prod.mk.injEq] at h
    exact ⟨v, h.2.symm, by simp [part]⟩
  · obtain ⟨v', h1, h2⟩ := num_inv (by simpa [Cur.opt] using h)
    exact ⟨v', h1, by simpa [part] using h2⟩

theorem v4_inv {p : Bool} {v rest : List UInt8} {a : Sockaddr} {c : Cur}
    (h : (curAt v rest).v4 p = .ok (a, c)) : ∃ v', c = curAt v' rest ∧ v = part p (addrOctets a) ++ v' := by
  cases p
  · simp only [Cur.v4, Bool.false_eq_true, if_false, Res.ok.injEq, Prod.mk.injEq] at h
    exact ⟨v, h.2.symm, by simp [part]⟩
  · obtain ⟨⟨n, c1⟩, h1, h2⟩ := Res.bind_eq_ok (by simpa [Cur.v4] using h)
    obtain ⟨v', rfl, rfl⟩ := num_inv h1
    simp only [Res.ok.injEq, Prod.mk.injEq] at h2
    obtain ⟨rfl, rfl⟩ := h2
    exact ⟨v', rfl, by simp [part, addrOctets]⟩

theorem v6_inv {p : Bool} {v rest : List UInt8} {a : Sockaddr} {c : Cur}
    (h : (curAt v rest).v6 p = .ok (a, c)) : ∃ v', c = curAt v' rest ∧ v = part p (addrOctets a) ++ v' := by
  cases p
  · simp only [Cur.v6, Bool.false_eq_true, if_false, Res.ok.injEq, Prod.mk.injEq] at h
    exact ⟨v, h.2.symm, by simp [part]⟩
  · obtain ⟨⟨n, c1⟩, h1, h2⟩ := Res.bind_eq_ok (by simpa [Cur.v6] using h)
    obtain ⟨v', rfl, rfl⟩ := num_inv h1
    simp only [Res.ok.injEq, Prod.mk.injEq] at h2
    obtain ⟨rfl, rfl⟩ := h2
    exact ⟨v', rfl, by simp [part, addrOctets]⟩

/-- C38, decoder: the presence flags are exactly what the description bits on the wire announce, and
the parts are read in the order TEID, IPv4, IPv6, port, C-TAG, S-TAG. -/
theorem C38_decoder (o : List UInt8) (v : Ohc) (h : ieDec .ohc o o.length = .ok (.ohc v)) :
    present v = announces o ∧
    ∃ surplus, o = v.desc ++ part v.teidPresent (be 4 v.teid) ++ part v.ip.v4Present (addrOctets v.ip.v4)
      ++ part v.ip.v6Present (addrOctets v.ip.v6) ++ part v.portPresent (be 2 v.port)
      ++ part v.cTagPresent (be 3 v.cTag) ++ part v.sTagPresent (be 3 v.sTag) ++ surplus ∧ v.desc.length = 2 := by
  have e : ieDec .ohc o o.length = (decOhc (curAt o [])).bind fun v => .ok (.ohc v) := by simp [ieDec, curAt]
  rw [e] at h
  obtain ⟨w, h1, h⟩ := Res.bind_eq_ok h
  simp only [Res.ok.injEq, IeVal.ohc.injEq] at h; subst h
  simp only [decOhc] at h1
  replace h1 := Res.bind_eq_ok h1
  obtain ⟨⟨d, c1⟩, hd, h1⟩ := h1
  dsimp only at h1
  obtain ⟨v1, rfl, rfl, hl⟩ := raw_inv hd
  replace h1 := Res.bind_eq_ok h1
  obtain ⟨pa, hpa, h1⟩ := h1
  rw [ohcParts_eq hl] at hpa
  simp only [Res.ok.injEq] at hpa
  replace h1 := Res.bind_eq_ok h1
  obtain ⟨⟨t, c2⟩, ht, h1⟩ := h1
  dsimp only at h1
  obtain ⟨v2, rfl, rfl⟩ := opt_inv ht
  replace h1 := Res.bind_eq_ok h1
  obtain ⟨⟨a4, c3⟩, h4, h1⟩ := h1
  dsimp only at h1
  obtain ⟨v3, rfl, rfl⟩ := v4_inv h4
  replace h1 := Res.bind_eq_ok h1
  obtain ⟨⟨a6, c4⟩, h6, h1⟩ := h1
  dsimp only at h1
  obtain ⟨v4, rfl, rfl⟩ := v6_inv h6
  replace h1 := Res.bind_eq_ok h1
  obtain ⟨⟨po, c5⟩, hpo, h1⟩ := h1
  dsimp only at h1
  obtain ⟨v5, rfl, rfl⟩ := opt_inv hpo
  replace h1 := Res.bind_eq_ok h1
  obtain ⟨⟨ct, c6⟩, hct, h1⟩ := h1
  dsimp only at h1
  obtain ⟨v6, rfl, rfl⟩ := opt_inv hct
  replace h1 := Res.bind_eq_ok h1
  obtain ⟨⟨st, c7⟩, hst, h1⟩ := h1
  dsimp only at h1
  obtain ⟨v7, rfl, rfl⟩ := opt_inv hst
  simp only [Res.ok.injEq] at h1; subst h1
  refine ⟨?_, v7, by simp only [List.append_assoc], hl⟩
  subst hpa
  have h0 (x : List UInt8) (i : Nat) (hi : i < 8) : bitAt (d ++ x) i = bitAt d i := by
    rw [bitAt_head _ _ hi, bitAt_head _ _ hi]
    match d, hl with
    | [a, b], _ => rfl
  simp [present, announces, h0]

/-! ### C39: presence flags of F-SEID, F-TEID and UE IP Address -/

/-- C39, F-SEID: bit 0 is IPv6, bit 1 is IPv4; behind the flags come SEID, IPv4, IPv6. -/
theorem C39_f_seid (o : List UInt8) (v : FSeid) (h : ieDec .fSeid o o.length = .ok (.fSeid v)) :
    v.ip.v6Present = bitAt o 0 ∧ v.ip.v4Present = bitAt o 1 ∧
    ∃ surplus, o.tail = be 8 v.seid ++ part v.ip.v4Present (addrOctets v.ip.v4)
      ++ part v.ip.v6Present (addrOctets v.ip.v6) ++ surplus := by
  have e : ieDec .fSeid o o.length = (decFSeid (curAt o [])).bind fun v => .ok (.fSeid v) := by simp [ieDec, curAt]
  rw [e] at h
  obtain ⟨w, h1, h⟩ := Res.bind_eq_ok h
  simp only [Res.ok.injEq, IeVal.fSeid.injEq] at h; subst h
  simp only [decFSeid] at h1
  split at h1
  · simp at h1
  · cases o with
    | nil => simp [curAt] at *
    | cons b o =>
      rw [num1_cons] at h1
      simp only [Res.bind_ok'] at h1
      replace h1 := Res.bind_eq_ok h1
      obtain ⟨⟨s, c2⟩, hs, h1⟩ := h1
      dsimp only at h1
      obtain ⟨v2, rfl, rfl⟩ := num_inv hs
      replace h1 := Res.bind_eq_ok h1
      obtain ⟨⟨a4, c3⟩, h4, h1⟩ := h1
      dsimp only at h1
      obtain ⟨v3, rfl, rfl⟩ := v4_inv h4
      replace h1 := Res.bind_eq_ok h1
      obtain ⟨⟨a6, c4⟩, h6, h1⟩ := h1
      dsimp only at h1
      obtain ⟨v4, rfl, rfl⟩ := v6_inv h6
      simp only [Res.ok.injEq] at h1; subst h1
      refine ⟨?_, ?_, v4, by simp only [List.tail_cons, List.append_assoc]⟩
      · rw [bitAt_head _ _ (by omega), flag_1]; rfl
      · rw [bitAt_head _ _ (by omega), flag_2]; rfl

/-- C39, F-TEID: bit 2 (CH) selects between a fixed TEID with addresses and a choice to be made. -/
theorem C39_f_teid (o : List UInt8) (v : FTeid) (h : ieDec .fTeid o o.length = .ok (.fTeid v)) :
    (bitAt o 2 = false → ∃ teid ip surplus, v = .fixed teid ip ∧
      ip.v4Present = bitAt o 0 ∧ ip.v6Present = bitAt o 1 ∧
      o.tail = be 4 teid ++ part ip.v4Present (addrOctets ip.v4) ++ part ip.v6Present (addrOctets ip.v6) ++ surplus) ∧
    (bitAt o 2 = true → ∃ id surplus, v = .choose (bitAt o 0) (bitAt o 1) (bitAt o 3) id ∧
      o.tail = part (bitAt o 3) (be 1 id) ++ surplus) := by
  have e : ieDec .fTeid o o.length = (decFTeid (curAt o [])).bind fun v => .ok (.fTeid v) := by simp [ieDec, curAt]
  rw [e] at h
  obtain ⟨w, h1, h⟩ := Res.bind_eq_ok h
  simp only [Res.ok.injEq, IeVal.fTeid.injEq] at h; subst h
  simp only [decFTeid] at h1
  cases o with
  | nil => simp [num_curAt] at h1
  | cons b o =>
    rw [num1_cons] at h1
    simp only [Res.bind_ok'] at h1
    have f0 : bitAt (b :: o) 0 = flag b.toNat 1 := by rw [bitAt_head _ _ (by omega), flag_1]; rfl
    have f1 : bitAt (b :: o) 1 = flag b.toNat 2 := by rw [bitAt_head _ _ (by omega), flag_2]; rfl
    have f2 : bitAt (b :: o) 2 = flag b.toNat 4 := by rw [bitAt_head _ _ (by omega), flag_4]; rfl
    have f3 : bitAt (b :: o) 3 = flag b.toNat 8 := by rw [bitAt_head _ _ (by omega), flag_8]; rfl
    rw [f0, f1, f2, f3]
    split at h1
    · next hch =>
      refine ⟨fun _ => ?_, fun h => absurd h hch⟩
      replace h1 := Res.bind_eq_ok h1
      obtain ⟨⟨s, c2⟩, hs, h1⟩ := h1
      dsimp only at h1
      obtain ⟨v2, rfl, rfl⟩ := num_inv hs
      replace h1 := Res.bind_eq_ok h1
      obtain ⟨⟨a4, c3⟩, h4, h1⟩ := h1
      dsimp only at h1
      obtain ⟨v3, rfl, rfl⟩ := v4_inv h4
      replace h1 := Res.bind_eq_ok h1
      obtain ⟨⟨a6, c4⟩, h6, h1⟩ := h1
      dsimp only at h1
      obtain ⟨v4, rfl, rfl⟩ := v6_inv h6
      simp only [Res.ok.injEq] at h1; subst h1
      exact ⟨_, _, v4, rfl, rfl, rfl, by simp only [List.tail_cons, List.append_assoc]⟩
    · next hch =>
      refine ⟨fun h => absurd h (by simpa using hch), fun _ => ?_⟩
      replace h1 := Res.bind_eq_ok h1
      obtain ⟨⟨s, c2⟩, hs, h1⟩ := h1
      dsimp only at h1
      obtain ⟨v2, rfl, rfl⟩ := opt_inv hs
      simp only [Res.ok.injEq] at h1; subst h1
      exact ⟨_, v2, rfl, by simp only [List.tail_cons]⟩

/-- C39, UE IP Address: bits 0 IPv6, 1 IPv4, 2 S/D, 3 prefix delegation, 4 CHV4, 5 CHV6, 6 prefix
length; behind the flags IPv4, IPv6, delegation bits, prefix length. -/
theorem C39_ue_ip_address (o : List UInt8) (v : UeIp) (h : ieDec .ueIp o o.length = .ok (.ueIp v)) :
    v.ip.v6Present = bitAt o 0 ∧ v.ip.v4Present = bitAt o 1 ∧ v.isDest = bitAt o 2 ∧
    v.delegPresent = bitAt o 3 ∧ v.chv4 = bitAt o 4 ∧ v.chv6 = bitAt o 5 ∧ v.plenPresent = bitAt o 6 ∧
    ∃ surplus, o.tail = part v.ip.v4Present (addrOctets v.ip.v4) ++ part v.ip.v6Present (addrOctets v.ip.v6)
      ++ part v.delegPresent (be 1 v.deleg) ++ part v.plenPresent (be 1 v.plen) ++ surplus := by
  have e : ieDec .ueIp o o.length = (decUeIp (curAt o [])).bind fun v => .ok (.ueIp v) := by simp [ieDec, curAt]
  rw [e] at h
  obtain ⟨w, h1, h⟩ := Res.bind_eq_ok h
  simp only [Res.ok.injEq, IeVal.ueIp.injEq] at h; subst h
  simp only [decUeIp] at h1
  cases o with
  | nil => simp [num_curAt] at h1
  | cons b o =>
    rw [num1_cons] at h1
    simp only [Res.bind_ok'] at h1
    replace h1 := Res.bind_eq_ok h1
    obtain ⟨⟨a4, c3⟩, h4, h1⟩ := h1
    dsimp only at h1
    obtain ⟨v3, rfl, rfl⟩ := v4_inv h4
    replace h1 := Res.bind_eq_ok h1
    obtain ⟨⟨a6, c4⟩, h6, h1⟩ := h1
    dsimp only at h1
    obtain ⟨v4, rfl, rfl⟩ := v6_inv h6
    replace h1 := Res.bind_eq_ok h1
    obtain ⟨⟨de, c5⟩, hde, h1⟩ := h1
    dsimp only at h1
    obtain ⟨v5, rfl, rfl⟩ := opt_inv hde
    replace h1 := Res.bind_eq_ok h1
    obtain ⟨⟨pl, c6⟩, hpl, h1⟩ := h1
    dsimp only at h1
    obtain ⟨v6, rfl, rfl⟩ := opt_inv hpl
    simp only [Res.ok.injEq] at h1; subst h1
    rw [bitAt_head _ _ (by omega), bitAt_head _ _ (by omega), bitAt_head _ _ (by omega),
      bitAt_head _ _ (by omega), bitAt_head _ _ (by omega), bitAt_head _ _ (by omega), bitAt_head _ _ (by omega),
      flag_1, flag_2, flag_4, flag_8, flag_16, flag_32, flag_64]
    exact ⟨rfl, rfl, rfl, rfl, rfl, rfl, rfl, v6, by simp only [List.tail_cons, List.append_assoc]⟩

/-- Not an address of the flagged family. -/
def WrongFamily (ip : IpAddrs) : Prop :=
  (ip.v4Present = true ∧ ip.v4.isInet = false) ∨ (ip.v6Present = true ∧ ip.v6.isInet6 = false)

theorem addr_refused {b b' : Msgb} {f : Sockaddr → Bool} {l : Nat} {a : Sockaddr}
    (h : f a = false) : b.addr true f l a ≠ .ok b' := by
  simp [Msgb.addr, h]

theorem Out.bind_eq_ok {σ} {x : Out σ} {f : σ → Out σ} {b : σ} (h : x.bind f = .ok b) :
    ∃ a, x = .ok a ∧ f a = .ok b := by
  cases x <;> simp_all

/-- C39, encoders: an address whose family contradicts its flag is refused. -/
theorem C39_wrong_family_refused (b b' : Msgb) :
    (∀ v : FSeid, WrongFamily v.ip → ieEnc (.fSeid v) b ≠ .ok b') ∧
    (∀ teid ip, WrongFamily ip → ieEnc (.fTeid (.fixed teid ip)) b ≠ .ok b') ∧
    (∀ v : UeIp, WrongFamily v.ip → ieEnc (.ueIp v) b ≠ .ok b') := by
  refine ⟨fun v hw h => ?_, fun teid ip hw h => ?_, fun v hw h => ?_⟩
  · simp only [ieEnc, encFSeid] at h
    obtain ⟨b1, h1, h⟩ := Out.bind_eq_ok h
    obtain ⟨b2, h2, h⟩ := Out.bind_eq_ok h
    obtain ⟨b3, h3, h⟩ := Out.bind_eq_ok h
    rcases hw with ⟨hp, hf⟩ | ⟨hp, hf⟩
    · rw [hp] at h3; exact addr_refused hf h3
    · rw [hp] at h; exact addr_refused hf h
  · simp only [ieEnc, encFTeid] at h
    obtain ⟨b1, h1, h⟩ := Out.bind_eq_ok h
    obtain ⟨b2, h2, h⟩ := Out.bind_eq_ok h
    obtain ⟨b3, h3, h⟩ := Out.bind_eq_ok h
    rcases hw with ⟨hp, hf⟩ | ⟨hp, hf⟩
    · rw [hp] at h3; exact addr_refused hf h3
    · rw [hp] at h; exact addr_refused hf h
  · simp only [ieEnc, encUeIp] at h
    obtain ⟨b1, h1, h⟩ := Out.bind_eq_ok h
    obtain ⟨b2, h2, h⟩ := Out.bind_eq_ok h
    obtain ⟨b3, h3, h⟩ := Out.bind_eq_ok h
    rcases hw with ⟨hp, hf⟩ | ⟨hp, hf⟩
    · rw [hp] at h2; exact addr_refused hf h2
    · rw [hp] at h3; exact addr_refused hf h3

example : WrongFamily { v4Present := true, v4 := .inet6 1 0 } := .inl ⟨rfl, rfl⟩

/-! ### C40: Node ID encoding -/

/-- C40 is false: a Node ID of type IPv4 whose address is an IPv6 address is encoded, with success, as
the address 0.0.0.0. -/
theorem C40_counterexample :
    ieEnc (.nodeId (.v4 (.inet6 1 0))) { cap := 100, data := [] } = .ok { cap := 100, data := [0, 0, 0, 0, 0] } := by
  decide

/-- C40 where the address has the family of the type: success means that type and address, or type
and name, have been appended; a Node ID of unknown type is never encoded. -/
theorem C40_node_id_partial (n : NodeId) (b b' : Msgb) (h : ieEnc (.nodeId n) b = .ok b')
    (hf4 : ∀ a, n = .v4 a → a.isInet = true) (hf6 : ∀ a, n = .v6 a → a.isInet6 = true) :
    (∃ x p, n = .v4 (.inet x p) ∧ b'.data = b.data ++ [0] ++ be 4 x) ∨
    (∃ x p, n = .v6 (.inet6 x p) ∧ b'.data = b.data ++ [1] ++ be 16 x) ∨
    (∃ s, n = .fqdn s ∧ b'.data = b.data ++ [2] ++ labelOctets (labelsOf s)) := by
  have pok {b b' : Msgb} {o : List UInt8} (h : b.put o = .ok b') : b'.data = b.data ++ o := by
    simp only [Msgb.put] at h
    split at h
    · simp only [Out.ok.injEq] at h; subst h; rfl
    · simp at h
  cases n with
  | v4 a =>
    left
    simp only [ieEnc, encNodeId] at h
    obtain ⟨b1, h1, h2⟩ := Out.bind_eq_ok h
    have h1 := pok h1
    have h2 := pok h2
    have := hf4 a rfl
    cases a with
    | inet x p => exact ⟨x, p, rfl, by rw [h2, h1, be_eq]; simp [Sockaddr.toOctets, storeBE]⟩
    | _ => simp [Sockaddr.isInet] at this
  | v6 a =>
    right; left
    simp only [ieEnc, encNodeId] at h
    obtain ⟨b1, h1, h2⟩ := Out.bind_eq_ok h
    have h1 := pok h1
    have h2 := pok h2
    have := hf6 a rfl
    cases a with
    | inet6 x p => exact ⟨x, p, rfl, by rw [h2, h1, be_eq]; simp [Sockaddr.toOctets, storeBE]⟩
    | _ => simp [Sockaddr.isInet6] at this
  | fqdn s =>
    right; right
    simp only [ieEnc, encNodeId] at h
    obtain ⟨b1, h1, h2⟩ := Out.bind_eq_ok h
    have h1 := pok h1
    simp only [encName, apnFromStr] at h2
    split at h2
    · simp at h2
    · next o ho =>
      split at ho
      · simp at ho
      · simp only [Option.some.injEq] at ho
        have h2 := pok h2
        exact ⟨s, rfl, by rw [h2, h1, ← ho, apnLabels_nil]; rfl⟩
  | other t =>
    simp only [ieEnc, encNodeId] at h
    obtain ⟨b1, h1, h2⟩ := Out.bind_eq_ok h
    simp at h2

example : ieEnc (.nodeId (.v6 (.inet6 1 0))) { cap := 100, data := [7] }
    = .ok { cap := 100, data := [7, 1, 0, 0, 0, 0, 0, 0, 0, 0, 0, 0, 0, 0, 0, 0, 0, 1] } := by decide

/-! ### C41: domain names -/

/-- A label: not empty, without dot and without NUL. -/
def IsLabel (l : List UInt8) : Prop := l ≠ [] ∧ (46 : UInt8) ∉ l ∧ (0 : UInt8) ∉ l

theorem labelsOf_append (l : List UInt8) (h : (46 : UInt8) ∉ l) (s : List UInt8) :
    labelsOf (l ++ 46 :: s) = l :: labelsOf s := by
  induction l with
  | nil => simp [labelsOf]
  | cons c l ih =>
    simp only [List.mem_cons, not_or] at h
    rw [List.cons_append, labelsOf, if_neg (fun e => h.1 e.symm), ih h.2]

theorem labelsOf_single (l : List UInt8) (h : (46 : UInt8) ∉ l) : labelsOf l = [l] := by
  induction l with
  | nil => simp [labelsOf]
  | cons c l ih =>
    simp only [List.mem_cons, not_or] at h
    rw [labelsOf, if_neg (fun e => h.1 e.symm), ih h.2]

theorem labelsOf_dotted (ls : List (List UInt8)) (hne : ls ≠ []) (h : ∀ l ∈ ls, IsLabel l) :
    labelsOf (dotted ls) = ls := by
  induction ls with
  | nil => exact absurd rfl hne
  | cons l ls ih =>
    cases ls with
    | nil => exact labelsOf_single l (h l (by simp)).2.1
    | cons m ms =>
      rw [dotted, labelsOf_append l (h l (by simp)).2.1, ih (by simp) (fun x hx => h x (by simp [hx]))]
      simp

theorem dotted_noNul (ls : List (List UInt8)) (h : ∀ l ∈ ls, IsLabel l) : (0 : UInt8) ∉ dotted ls := by
  induction ls with
  | nil => simp [dotted]
  | cons l ls ih =>
    cases ls with
    | nil => exact (h l (by simp)).2.2
    | cons m ms =>
      simp only [dotted, List.mem_append, List.mem_cons, not_or]
      exact ⟨(h l (by simp)).2.2, by decide, ih (fun x hx => h x (by simp [hx]))⟩

theorem goodName_dotted (ls : List (List UInt8)) (hne : ls ≠ []) (h : ∀ l ∈ ls, IsLabel l)
    (hl : (dotted ls).length ≤ 253) : GoodName (dotted ls) :=
  ⟨hl, dotted_noNul ls h, .inr (by rw [labelsOf_dotted ls hne h]; exact fun l m => (h l m).1)⟩

/-- C41: a name of labels is carried as length prefixed labels, and is decoded to itself - both as
Network Instance and as FQDN of a Node ID. -/
theorem C41_round_trip (ls : List (List UInt8)) (hne : ls ≠ []) (h : ∀ l ∈ ls, IsLabel l)
    (hl : (dotted ls).length ≤ 253) (rest : List UInt8) (b : Msgb)
    (room : b.data.length + 1 + (labelOctets ls).length ≤ b.cap) :
    ieEnc (.networkInst (dotted ls)) b = .ok { b with data := b.data ++ labelOctets ls } ∧
    ieDec .networkInst (labelOctets ls ++ rest) (labelOctets ls).length = .ok (.networkInst (dotted ls)) ∧
    ieEnc (.nodeId (.fqdn (dotted ls))) b = .ok { b with data := b.data ++ 2 :: labelOctets ls } ∧
    ieDec .nodeId (2 :: labelOctets ls ++ rest) (1 + (labelOctets ls).length) = .ok (.nodeId (.fqdn (dotted ls))) := by
  have g := goodName_dotted ls hne h hl
  have e := labelsOf_dotted ls hne h
  refine ⟨?_, ?_, ?_, ?_⟩
  · have := puts_wire (.networkInst (dotted ls)) g b (by simp only [wire, e]; omega)
    simpa only [wire, e] using this
  · have := dec_wire (.networkInst (dotted ls)) g rest (by simp [IeVal.kind])
    simp only [wire, e] at this; exact this
  · have := puts_wire (.nodeId (.fqdn (dotted ls))) g b (by
      simp only [wire, e, List.length_append, List.length_cons, List.length_nil]; omega)
    simpa only [wire, e, List.cons_append, List.nil_append] using this
  · have := dec_wire (.nodeId (.fqdn (dotted ls))) g rest (by simp [IeVal.kind])
    simp only [wire, e, List.cons_append, List.nil_append, List.length_cons] at this
    rw [Nat.add_comm]; exact this

theorem apn_overrun (ls : List (List UInt8)) (h : ∀ l ∈ ls, l ≠ [] ∧ l.length ≤ 255) (c : UInt8)
    (x : List UInt8) (hc : c ≠ 0) (hx : x.length < c.toNat) :
    apnToStr (labelOctets ls ++ c :: x) (labelOctets ls ++ c :: x).length = .err .EINVAL := by
  induction ls with
  | nil =>
    rw [apnToStr]
    simp only [labelOctets, List.flatMap_nil, List.nil_append, rd_zero_cons, List.length_cons]
    rw [if_neg (by omega), if_neg hc, if_pos (by omega)]
  | cons l ls ih =>
    obtain ⟨hne, hlt⟩ := h l (by simp)
    have ih := ih (fun y hy => h y (by simp [hy]))
    have hn : (octet l.length).toNat = l.length := by
      simp [octet, UInt8.toNat_ofNat', Nat.mod_eq_of_lt (by omega : l.length < 256)]
    have hz : octet l.length ≠ 0 := by
      intro e; have := congrArg UInt8.toNat e; rw [hn] at this; simp at this; exact hne this
    have e1 : labelOctets (l :: ls) ++ c :: x = octet l.length :: (l ++ (labelOctets ls ++ c :: x)) := by
      simp [labelOctets]
    rw [e1]
    generalize labelOctets ls ++ c :: x = y at ih ⊢
    rw [apnToStr]
    simp only [rd_zero_cons, List.length_cons, List.length_append, hn]
    rw [if_neg (by omega), if_neg hz, if_neg (by omega)]
    have e2 : rdN (octet l.length :: (l ++ y)) 1 l.length = .ok l := by
      rw [rdN_ok (by simp; omega)]; simp
    have e3 : (octet l.length :: (l ++ y)).drop (l.length + 1) = y := by simp
    rw [e2, e3]
    simp only [Res.bind_ok']
    rw [show l.length + y.length + 1 - (l.length + 1) = y.length by omega, ih]
    rfl

/-- C41: a label that overruns the IE is refused, wherever it is. -/
theorem C41_overrun_refused (ls : List (List UInt8)) (h : ∀ l ∈ ls, l ≠ [] ∧ l.length ≤ 255) (c : UInt8)
    (x : List UInt8) (hc : c ≠ 0) (hx : x.length < c.toNat) :
    (∃ e, ieDec .networkInst (labelOctets ls ++ c :: x) (labelOctets ls ++ c :: x).length = .err e) ∧
    (∃ e, ieDec .nodeId (2 :: (labelOctets ls ++ c :: x)) (1 + (labelOctets ls ++ c :: x).length) = .err e) := by
  have key : ∃ e, decName ⟨labelOctets ls ++ c :: x, (labelOctets ls ++ c :: x).length⟩ = .err e := by
    simp only [decName]
    by_cases hr : (labelOctets ls ++ c :: x).length < 1 ∨ 254 < (labelOctets ls ++ c :: x).length
    · exact ⟨_, by rw [if_pos hr]⟩
    · exact ⟨.EINVAL, by rw [if_neg hr, apn_overrun ls h c x hc hx]; rfl⟩
  obtain ⟨e, he⟩ := key
  refine ⟨⟨e, by simp only [ieDec, he]; rfl⟩, ⟨e, ?_⟩⟩
  have h1 := num1_cons 2 (labelOctets ls ++ c :: x) []
  simp only [curAt, List.append_nil] at h1
  have h1' : Cur.num 1 ⟨2 :: (labelOctets ls ++ c :: x), 1 + (labelOctets ls ++ c :: x).length⟩
      = .ok (2, ⟨labelOctets ls ++ c :: x, (labelOctets ls ++ c :: x).length⟩) := by
    rw [Nat.add_comm]; exact h1
  simp only [ieDec, decNodeId, h1', Res.bind_ok']
  rw [if_neg (by decide), if_neg (by decide), if_pos trivial, he]; rfl

/-- "ab.c", and the octets 1 'a' 3 'b': the second label overruns. -/
example : (∀ l ∈ ([[97, 98], [99]] : List (List UInt8)), IsLabel l) ∧ dotted [[97, 98], [99]] = [97, 98, 46, 99] := by
  simp only [IsLabel]; decide
example : ieDec .networkInst [1, 97, 3, 98] 4 = .err .EINVAL := by
  have := (C41_overrun_refused [[97]] (by decide) 3 [98] (by decide) (by decide)).1
  simp [ieDec, decName, apnToStr, rdN, rd]

/-! ### C42: bit fields -/

/-- C42: setting bit `i` changes bit `i` only. -/
theorem C42_set_get (bits : List UInt8) (i : Nat) (val : Bool) (h : i / 8 < bits.length) :
    ∃ bits', bitsSet bits i val = .ok bits' ∧ bits'.length = bits.length ∧
      ∀ j, j / 8 < bits.length → bitsGet bits' j = .ok (if j = i then val else bitAt bits j) := by
  refine ⟨bits.set (i / 8) (if val then bits[i / 8] ||| UInt8.ofNat (1 <<< (i % 8))
    else bits[i / 8] &&& ~~~UInt8.ofNat (1 <<< (i % 8))),
    by simp only [bitsSet, rd_ok h, Res.bind_ok'], by simp, fun j hj => ?_⟩
  rw [bitsGet_eq (by simpa using hj)]
  congr 1
  simp only [bitAt]
  by_cases hij : j / 8 = i / 8
  · rw [hij, List.getElem?_set_self h, List.getElem?_eq_getElem h]
    simp only [Option.map_some, Option.any_some]
    have hi8 : i % 8 < 8 := Nat.mod_lt _ (by omega)
    have hj8 : j % 8 < 8 := Nat.mod_lt _ (by omega)
    generalize bits[i / 8] = b
    have hmask (k : Nat) (hk : k < 8) : (UInt8.ofNat (1 <<< (i % 8))).toNat.testBit k = decide (i % 8 = k) := by
      rw [UInt8.toNat_ofNat', Nat.one_shiftLeft, Nat.mod_eq_of_lt (Nat.pow_lt_pow_right (by omega) hi8),
        Nat.testBit_two_pow]
    have hji : (j = i) ↔ (j % 8 = i % 8) := by omega
    cases val
    · simp only [Bool.false_eq_true, if_false]
      have hb : ∀ (x : UInt8) (k : Nat), x.toNat.testBit k = x.toBitVec.getLsbD k := fun x k => by
        rw [← BitVec.testBit_toNat]; rfl
      rw [hb, UInt8.toBitVec_and, BitVec.getLsbD_and, UInt8.toBitVec_not, BitVec.getLsbD_not, ← hb, ← hb, hmask _ hj8]
      by_cases e : j = i
      · simp [e]
      · have : ¬ (i % 8 = j % 8) := by omega
        simp [e, this, hj8]
    · simp only [if_true]
      rw [UInt8.toNat_or, Nat.testBit_or, hmask _ hj8]
      by_cases e : j = i
      · simp [e]
      · have : ¬ (i % 8 = j % 8) := by omega
        simp [e, this]
  · rw [List.getElem?_set_ne (fun e => hij e.symm)]
    have : j ≠ i := fun e => hij (by rw [e])
    simp [this]

/-- C42: bit `i` is bit `i % 8` (least significant first) of octet `i / 8`. -/
theorem C42_get (bits : List UInt8) (i : Nat) (h : i / 8 < bits.length) :
    bitsGet bits i = .ok (bits[i / 8].toNat.testBit (i % 8)) := by
  rw [bitsGet_eq h]
  simp [bitAt, List.getElem?_eq_getElem h]

example : bitsSet [0, 0xff] 9 false = .ok [0, 0xfd] := by decide

/-! ### C43: comparison of F-SEIDs -/

/-- C43 is false: two F-SEIDs without address and with the same SEID compare as "greater", both ways. -/
theorem C43_counterexample_not_reflexive :
    fSeidCmp false (some { seid := 1 }) (some { seid := 1 }) = 1 := by decide

/-- C43 is false: "equal" is not transitive when one F-SEID has both addresses. -/
theorem C43_counterexample_not_transitive :
    ∃ a b c : FSeid, InRange (.fSeid a) ∧ InRange (.fSeid b) ∧ InRange (.fSeid c) ∧
      fSeidCmp false (some a) (some b) = 0 ∧ fSeidCmp false (some b) (some c) = 0 ∧
      fSeidCmp false (some a) (some c) ≠ 0 := by
  refine ⟨{ seid := 1, ip := { v4Present := true, v4 := .inet 1 0 } },
    { seid := 1, ip := { v4Present := true, v4 := .inet 1 0, v6Present := true, v6 := .inet6 1 0 } },
    { seid := 1, ip := { v6Present := true, v6 := .inet6 1 0 } }, ?_, ?_, ?_, by decide, by decide, by decide⟩
  · exact ⟨by decide, ⟨_, by decide, rfl⟩, rfl⟩
  · exact ⟨by decide, ⟨_, by decide, rfl⟩, ⟨_, by decide, rfl⟩⟩
  · exact ⟨by decide, rfl, ⟨_, by decide, rfl⟩⟩

/-- An F-SEID with this IPv4 address (and port, as it is not reset everywhere). -/
def At4 (addr port seid : Nat) (f : FSeid) : Prop :=
  f.ip.v4Present = true ∧ f.ip.v4 = .inet addr port ∧ f.seid = seid

/-- An F-SEID with this IPv6 address and no IPv4 address. -/
def At6 (addr port seid : Nat) (f : FSeid) : Prop :=
  f.ip.v4Present = false ∧ f.ip.v6Present = true ∧ f.ip.v6 = .inet6 addr port ∧ f.seid = seid

/-- The order of address, then port, then SEID. -/
def Before (x y : Nat × Nat × Nat) : Prop :=
  x.1 < y.1 ∨ (x.1 = y.1 ∧ (x.2.1 < y.2.1 ∨ (x.2.1 = y.2.1 ∧ x.2.2 < y.2.2)))

theorem cmp_at (a b : FSeid) (x y : Nat × Nat × Nat)
    (h : (At4 x.1 x.2.1 x.2.2 a ∧ At4 y.1 y.2.1 y.2.2 b) ∨ (At6 x.1 x.2.1 x.2.2 a ∧ At6 y.1 y.2.1 y.2.2 b)) :
    fSeidCmp false (some a) (some b) =
      if x.1 < y.1 then -1 else if y.1 < x.1 then 1
      else if x.2.1 < y.2.1 then -1 else if y.2.1 < x.2.1 then 1
      else if x.2.2 < y.2.2 then -1 else if y.2.2 < x.2.2 then 1 else 0 := by
  obtain ⟨xa, xp, xs⟩ := x
  obtain ⟨ya, yp, ys⟩ := y
  rcases h with ⟨⟨h1, h2, h3⟩, ⟨h4, h5, h6⟩⟩ | ⟨⟨h0, h1, h2, h3⟩, ⟨h0', h4, h5, h6⟩⟩
  · simp only [fSeidCmp, fSeidAddrCmp, h1, h2, h3, h4, h5, h6, Sockaddr.cmp, Sockaddr.family,
      Sockaddr.cmpNat, Bool.false_eq_true, if_false, and_self, if_true, Nat.lt_irrefl, ne_eq, not_true_eq_false]
    (repeat' split) <;> first | rfl | omega | simp_all
  · simp only [fSeidCmp, fSeidAddrCmp, h0, h0', h1, h2, h3, h4, h5, h6, Sockaddr.cmp, Sockaddr.family,
      Sockaddr.cmpNat, Bool.false_eq_true, if_false, and_self, if_true, Nat.lt_irrefl, ne_eq, not_true_eq_false]
    (repeat' split) <;> first | rfl | omega | simp_all

/-- C43 among F-SEIDs that all have an IPv4 address, or all have an IPv6 address only: zero exactly
for the same address, port and SEID; otherwise the order by address, port and SEID (a strict total
order, so the comparison is antisymmetric and transitive). -/
theorem C43_order_partial (a b : FSeid) (x y : Nat × Nat × Nat)
    (h : (At4 x.1 x.2.1 x.2.2 a ∧ At4 y.1 y.2.1 y.2.2 b) ∨ (At6 x.1 x.2.1 x.2.2 a ∧ At6 y.1 y.2.1 y.2.2 b)) :
    (fSeidCmp false (some a) (some b) = 0 ↔ x = y) ∧
    (fSeidCmp false (some a) (some b) = -1 ↔ Before x y) ∧
    (fSeidCmp false (some a) (some b) = 1 ↔ Before y x) := by
  rw [cmp_at a b x y h]
  obtain ⟨xa, xp, xs⟩ := x
  obtain ⟨ya, yp, ys⟩ := y
  simp only [Before, Prod.mk.injEq]
  refine ⟨?_, ?_, ?_⟩ <;> (repeat' split) <;> simp <;> omega

/-- C43: NULL is less than anything else and equal to itself; the same object is equal to itself. -/
theorem C43_null (f : FSeid) (x : Option FSeid) :
    fSeidCmp false none none = 0 ∧ fSeidCmp false none (some f) = -1 ∧ fSeidCmp false (some f) none = 1 ∧
    fSeidCmp true x x = 0 := by
  simp [fSeidCmp]

example : At4 1 0 5 { seid := 5, ip := { v4Present := true, v4 := .inet 1 0 } } ∧
    At4 1 0 7 (fSeidSet 7 (.inet 1 8805)) := ⟨⟨rfl, rfl, rfl⟩, ⟨rfl, rfl, rfl⟩⟩
example : At6 1 0 7 (fSeidSet 7 (.inet6 1 8805)) := ⟨rfl, rfl, rfl, rfl⟩

/-! ### C44: IP address set -/

/-- C44: storing an address makes it (with port 0) the one that is returned for its family, and
leaves the other family alone; an address of no known family is refused and changes nothing. -/
theorem C44_set_get (dst : IpAddrs) (addr : Sockaddr) (o4 o6 : Sockaddr) :
    (∀ a p, addr = .inet a p → ∃ dst', dst.set addr = .ok dst' ∧
      dst'.get (some o4) (some o6) = (some (.inet a 0), (dst.get none (some o6)).2)) ∧
    (∀ a p, addr = .inet6 a p → ∃ dst', dst.set addr = .ok dst' ∧
      dst'.get (some o4) (some o6) = ((dst.get (some o4) none).1, some (.inet6 a 0))) ∧
    ((∀ a p, addr ≠ .inet a p ∧ addr ≠ .inet6 a p) → dst.set addr = .err .ENOTSUP dst) := by
  refine ⟨?_, ?_, ?_⟩
  · rintro a p rfl; exact ⟨_, rfl, rfl⟩
  · rintro a p rfl; exact ⟨_, rfl, rfl⟩
  · intro h
    cases addr with
    | inet a p => exact absurd rfl (h a p).1
    | inet6 a p => exact absurd rfl (h a p).2
    | _ => rfl

/-- C44: exactly the present addresses are returned; an absent one is AF_UNSPEC, and an output that
is not asked for is not written. -/
theorem C44_get (src : IpAddrs) (v4 v6 : Option Sockaddr) :
    ((src.get v4 v6).1 = none ↔ v4 = none) ∧ ((src.get v4 v6).2 = none ↔ v6 = none) ∧
    (v4 ≠ none → src.v4Present = true → (src.get v4 v6).1 = some src.v4) ∧
    (v4 ≠ none → src.v4Present = false → (src.get v4 v6).1 = some .unspec) ∧
    (v6 ≠ none → src.v6Present = true → (src.get v4 v6).2 = some src.v6) ∧
    (v6 ≠ none → src.v6Present = false → (src.get v4 v6).2 = some .unspec) := by
  cases v4 <;> cases v6 <;> simp +contextual [IpAddrs.get]

/-- C44 is false for `osmo_pfcp_ip_addrs_get_str()`: with both addresses present, the second output
keeps whatever was there, and success is returned. -/
theorem C44_counterexample :
    IpAddrs.getStr (some (.garbage 1)) (some (.garbage 2))
      { v4Present := true, v4 := .inet 1 0, v6Present := true, v6 := .inet6 1 0 }
    = .ok (some (.text (.inet 1 0)), some (.garbage 2)) := by decide

/-- C44 for `osmo_pfcp_ip_addrs_get_str()` if the IPv6 output is not asked for, or the set has no IPv4
address: all outputs asked for are written. -/
theorem C44_get_str_partial (src : IpAddrs) (v4 v6 : Option IpAddrs.AddrStr) (hg : GoodIps src)
    (h : v6 = none ∨ src.v4Present = false ∨ v4 = none) :
    IpAddrs.getStr v4 v6 src =
      .ok (v4.map (fun _ => if src.v4Present then .text src.v4 else .empty),
           v6.map (fun _ => if src.v6Present then .text src.v6 else .empty)) := by
  obtain ⟨h4, h6⟩ := hg
  obtain ⟨p4, a4, p6, a6⟩ := src
  cases v4 <;> cases v6 <;> cases p4 <;> cases p6 <;>
    simp only [Bool.false_eq_true, if_true, if_false] at h4 h6 <;>
    first
      | (simp at h; done)
      | (try (obtain ⟨n4, _, rfl⟩ := h4)
         try (obtain ⟨n6, _, rfl⟩ := h6)
         rfl)

/-! ### C45: Node ID and socket address -/

/-- C45 is false: with a blank output argument, converting back fails. -/
theorem C45_counterexample :
    nodeIdFromSockaddr (.inet 1 0) = .ok (.v4 (.inet 1 0)) ∧
    nodeIdToSockaddr (.v4 (.inet 1 0)) .unspec = .err .EINVAL := by decide

/-- C45 if the output argument has the family of the address already: the round trip is exact
(including the port).  An address of another family is refused by the first conversion. -/
theorem C45_round_trip_partial (os out : Sockaddr) :
    ((∃ a p, os = .inet a p) → (∃ a p, out = .inet a p) →
      ∃ n, nodeIdFromSockaddr os = .ok n ∧ nodeIdToSockaddr n out = .ok os) ∧
    ((∃ a p, os = .inet6 a p) → (∃ a p, out = .inet6 a p) →
      ∃ n, nodeIdFromSockaddr os = .ok n ∧ nodeIdToSockaddr n out = .ok os) ∧
    ((∀ a p, os ≠ .inet a p ∧ os ≠ .inet6 a p) → nodeIdFromSockaddr os = .err .ENOTSUP) := by
  refine ⟨?_, ?_, ?_⟩
  · rintro ⟨a, p, rfl⟩ ⟨a', p', rfl⟩; exact ⟨_, rfl, rfl⟩
  · rintro ⟨a, p, rfl⟩ ⟨a', p', rfl⟩; exact ⟨_, rfl, rfl⟩
  · intro h
    cases os with
    | inet a p => exact absurd rfl (h a p).1
    | inet6 a p => exact absurd rfl (h a p).2
    | _ => rfl

end Verif.Props
