/-
C75: what the decoders of IEs return, for all octets.
-/
import Verif.SpecReads
import Verif.PropsIes

namespace Verif.Props
open Verif Spec

/-- A reader that takes `n` octets, and reads `f` of them. -/
def Takes {α} (P : Cur → Res (α × Cur)) (n : Nat) (f : List UInt8 → α) : Prop :=
  ∀ o r, P (curAt o r) = if o.length < n then .err .EINVAL else .ok (f o, curAt (o.drop n) r)

theorem Takes.num (k : Nat) : Takes (Cur.num k) k fun o => numAt o 0 k := by
  intro o r
  rw [num_curAt]
  rfl

theorem Takes.raw (k : Nat) : Takes (Cur.raw k) k fun o => o.take k := raw_curAt k

theorem Takes.opt (p : Bool) (k : Nat) : Takes (Cur.opt p k) (ifBit p k) fun o => optAt p o 0 k := by
  intro o r
  cases p
  · simp [Cur.opt, ifBit, optAt]
  · simpa [Cur.opt, ifBit, optAt] using Takes.num k o r

theorem Takes.v4 (p : Bool) : Takes (Cur.v4 p) (ifBit p 4) fun o => if p then .inet (numAt o 0 4) 0 else .unspec := by
  intro o r
  cases p
  · simp [Cur.v4, ifBit]
  · have := Takes.num 4 o r
    simp only [Cur.v4, ifBit, if_true, this]
    split <;> rfl

theorem Takes.v6 (p : Bool) : Takes (Cur.v6 p) (ifBit p 16) fun o => if p then .inet6 (numAt o 0 16) 0 else .unspec := by
  intro o r
  cases p
  · simp [Cur.v6, ifBit]
  · have := Takes.num 16 o r
    simp only [Cur.v6, ifBit, if_true, this]
    split <;> rfl

/-- Read `P`, then go on. -/
theorem Takes.then {α β} {P : Cur → Res (α × Cur)} {n : Nat} {f : List UInt8 → α} (h : Takes P n f)
    (g : α × Cur → Res β) (o r : List UInt8) :
    (P (curAt o r)).bind g = if o.length < n then .err .EINVAL else g (f o, curAt (o.drop n) r) := by
  rw [h o r]
  split <;> rfl

theorem numAt_drop (o : List UInt8) (n i k : Nat) : numAt (o.drop n) i k = numAt o (n + i) k := by
  simp [numAt, List.drop_drop]
theorem optAt_drop (p : Bool) (o : List UInt8) (n i k : Nat) : optAt p (o.drop n) i k = optAt p o (n + i) k := by
  simp [optAt, numAt_drop]

theorem numAt_head (o : List UInt8) : numAt o 0 1 = (o.map UInt8.toNat).headD 0 := by
  cases o <;> simp [numAt, loadBE]

theorem flag_bitAt (o : List UInt8) (i : Nat) (hi : i < 8) : flag (numAt o 0 1) (2 ^ i) = bitAt o i := by
  rw [flag_eq, numAt_head, bitAt_head o i hi]

theorem announces_take (o : List UInt8) : announces (o.take 2) = announces o := by
  have h : ∀ i, i < 16 → bitAt (o.take 2) i = bitAt o i := by
    intro i hi
    simp only [bitAt]
    rw [List.getElem?_take_of_lt (by omega)]
  simp [announces, h]

theorem ipsAt_eq (a b : Bool) (o : List UInt8) (i : Nat) :
    ({ v4Present := a, v4 := if a then .inet (numAt o i 4) 0 else .unspec
       v6Present := b, v6 := if b then .inet6 (numAt o (i + ifBit a 4) 16) 0 else .unspec } : IpAddrs) = ipsAt a b o i := rfl

theorem takeWhile_take_n (o rest : List UInt8) : ∀ n, n ≤ o.length →
    ((o ++ rest).takeWhile (· ≠ 0)).take n = (o.takeWhile (· ≠ 0)).take n := by
  induction o with
  | nil => intro n hn; cases n <;> simp at hn ⊢
  | cons c o ih =>
    intro n hn
    cases n with
    | zero => simp
    | succ n =>
      simp only [List.cons_append, List.takeWhile_cons]
      by_cases hc : c = 0
      · simp [hc]
      · simp only [hc, ne_eq, not_false_eq_true, decide_true, if_true, List.take_succ_cons, List.cons.injEq, true_and]
        exact ih n (by simpa using hn)

theorem takeWhile_take (o rest : List UInt8) :
    ((o ++ rest).takeWhile (· ≠ 0)).take (min 256 (o.length + 1) - 1) = (o.takeWhile (· ≠ 0)).take 255 := by
  rw [takeWhile_take_n _ _ _ (by omega)]
  have hlt : (o.takeWhile (· ≠ 0)).length ≤ o.length := (List.takeWhile_prefix _).length_le
  by_cases hl : o.length ≤ 255
  · rw [List.take_of_length_le (by omega), List.take_of_length_le (by omega)]
  · rw [show min 256 (o.length + 1) - 1 = 255 by omega]

/-- The result of a decoder. -/
def orInvalid : Option IeVal → Res IeVal
  | some v => .ok v
  | none => .err .EINVAL

theorem orInvalid_if (p : Prop) [Decidable p] (a b : Option IeVal) :
    orInvalid (if p then a else b) = if p then orInvalid a else orInvalid b := by split <;> rfl

/-- C75: for all octets of an IE and whatever follows in memory, the decoder returns what the octets mean, and
-EINVAL if they are not an IE of this kind. (Names: C41. Activate Predefined Rules: a NUL must follow, C36.) -/
theorem C75_decoders (k : IeKind) (o rest : List UInt8) (hname : k ≠ .networkInst)
    (hnode : k = .nodeId → o[0]? ≠ some 2) (hnul : k = .apr → 0 ∈ o ++ rest) :
    ieDec k (o ++ rest) o.length = orInvalid (readIe k o) := by
  have f1 := flag_bitAt o 0 (by omega)
  have f2 := flag_bitAt o 1 (by omega)
  have f4 := flag_bitAt o 2 (by omega)
  have f8 := flag_bitAt o 3 (by omega)
  have f16 := flag_bitAt o 4 (by omega)
  have f32 := flag_bitAt o 5 (by omega)
  have f64 := flag_bitAt o 6 (by omega)
  simp only [Nat.reducePow] at f1 f2 f4 f8 f16 f32 f64
  have exact : ∀ k, decExact k (curAt o rest) = if o.length = k then .ok (numAt o 0 k) else .err .EINVAL := by
    intro k
    unfold decExact
    by_cases h : o.length = k
    · rw [if_neg (by simpa [curAt] using h), (Takes.num k).then, if_neg (by omega), if_pos h]
    · rw [if_pos (by simpa [curAt] using h), if_neg h]
  have atLeast : ∀ k, decAtLeast k (curAt o rest) = if o.length < k then .err .EINVAL else .ok (numAt o 0 k) := by
    intro k
    unfold decAtLeast
    rw [(Takes.num k).then]
  cases k with
  | cause =>
    show (decExact 1 (curAt o rest)).bind _ = _
    simp only [exact, readIe, needs]
    by_cases h : o.length = 1
    · simp [h, orInvalid]
    · by_cases h' : o.length < 1 <;> simp [h, h', orInvalid]
  | offendingIe =>
    show (decExact 2 (curAt o rest)).bind _ = _
    simp only [exact, readIe, needs]
    by_cases h : o.length = 2
    · simp [h, orInvalid]
    · by_cases h' : o.length < 2 <;> simp [h, h', orInvalid]
  | u8 =>
    show (decAtLeast 1 (curAt o rest)).bind _ = _
    rw [atLeast]
    by_cases h : o.length < 1
    · rw [if_pos h, show readIe .u8 o = none from if_pos h]; rfl
    · rw [if_neg h, show readIe .u8 o = _ from if_neg h]; rfl
  | u16 =>
    show (decAtLeast 2 (curAt o rest)).bind _ = _
    rw [atLeast]
    by_cases h : o.length < 2
    · rw [if_pos h, show readIe .u16 o = none from if_pos h]; rfl
    · rw [if_neg h, show readIe .u16 o = _ from if_neg h]; rfl
  | u32 =>
    show (decAtLeast 4 (curAt o rest)).bind _ = _
    rw [atLeast]
    by_cases h : o.length < 4
    · rw [if_pos h, show readIe .u32 o = none from if_pos h]; rfl
    · rw [if_neg h, show readIe .u32 o = _ from if_neg h]; rfl
  | ifaceType =>
    show (decAtLeast 1 (curAt o rest)).bind _ = _
    rw [atLeast]
    by_cases h : o.length < 1
    · rw [if_pos h, show readIe .ifaceType o = none from if_pos h]; rfl
    · rw [if_neg h, show readIe .ifaceType o = _ from if_neg h]
      simp only [Res.bind_ok', orInvalid]; rw [show (63 : Nat) = 2 ^ 6 - 1 from rfl, Nat.and_two_pow_sub_one_eq_mod]
  | sourceIface =>
    show (decAtLeast 1 (curAt o rest)).bind _ = _
    rw [atLeast]
    by_cases h : o.length < 1
    · rw [if_pos h, show readIe .sourceIface o = none from if_pos h]; rfl
    · rw [if_neg h, show readIe .sourceIface o = _ from if_neg h]
      simp only [Res.bind_ok', orInvalid]; rw [show (15 : Nat) = 2 ^ 4 - 1 from rfl, Nat.and_two_pow_sub_one_eq_mod]
  | destIface =>
    show (decAtLeast 1 (curAt o rest)).bind _ = _
    rw [atLeast]
    by_cases h : o.length < 1
    · rw [if_pos h, show readIe .destIface o = none from if_pos h]; rfl
    · rw [if_neg h, show readIe .destIface o = _ from if_neg h]
      simp only [Res.bind_ok', orInvalid]; rw [show (15 : Nat) = 2 ^ 4 - 1 from rfl, Nat.and_two_pow_sub_one_eq_mod]
  | nodeId =>
    show (decNodeId (curAt o rest)).bind _ = _
    have hnode := hnode rfl
    simp only [decNodeId, (Takes.num 1).then, (Takes.num 4).then, (Takes.num 16).then, readIe, needs]
    cases o with
    | nil => simp [orInvalid]
    | cons c o =>
      have hl : (curAt ((c :: o).drop 1) rest).rem = o.length := rfl
      rw [if_neg (by simp), hl]
      have hn : numAt (c :: o) 0 1 = c.toNat := by simp [numAt, loadBE]
      have h2 : c ≠ 2 := by simpa using hnode
      have e : ∀ k : Nat, k < 256 → (c.toNat = k ↔ c = UInt8.ofNat k) := by
        intro k hk
        constructor
        · intro h; rw [← h]; simp
        · intro h; rw [h]; simp; omega
      simp only [hn, List.getElem?_cons_zero, Option.some.injEq, List.length_cons, List.drop_succ_cons, List.drop_zero]
      have e0 := e 0 (by decide)
      have e1 := e 1 (by decide)
      have e2 := e 2 (by decide)
      by_cases c0 : c = 0
      · by_cases h4 : o.length = 4
        · subst c0; simp [h4, orInvalid, numAt]
        · subst c0
          by_cases h5 : o.length + 1 < 1 + 4 <;> simp [h4, h5, orInvalid]
      · by_cases c1 : c = 1
        · by_cases h4 : o.length = 16
          · subst c1; simp [h4, orInvalid, numAt]
          · subst c1
            by_cases h5 : o.length + 1 < 1 + 16 <;> simp [h4, h5, orInvalid]
        · have a0 : ¬ c.toNat = 0 := fun h => c0 (e0.mp h)
          have a1 : ¬ c.toNat = 1 := fun h => c1 (e1.mp h)
          have a2 : ¬ c.toNat = 2 := fun h => h2 (e2.mp h)
          rw [if_neg a0, if_neg a1, if_neg a2]
          simp [c0, c1, orInvalid]
  | upFeatures =>
    show (decBits 6 (curAt o rest)).bind _ = _
    rw [decBits_curAt]
    simp [readIe, needs, orInvalid, padded]
    omega
  | cpFeatures =>
    show ((curAt o rest).raw 1).bind _ = _
    rw [(Takes.raw 1).then]
    by_cases h : o.length < 1
    · rw [if_pos h, show readIe .cpFeatures o = none from if_pos h]; rfl
    · rw [if_neg h, show readIe .cpFeatures o = _ from if_neg h]
      simp only [orInvalid, padded]
      rw [show 1 - o.length = 0 by omega]; simp
  | fSeid =>
    show (decFSeid (curAt o rest)).bind _ = _
    have hrem : (curAt o rest).rem = o.length := rfl
    simp only [decFSeid, hrem, (Takes.num 1).then, (Takes.num 8).then, (Takes.v4 _).then, (Takes.v6 _).then, f1, f2,
      numAt_drop, List.length_drop, List.drop_drop]
    by_cases h : o.length < needs .fSeid o
    · rw [show readIe .fSeid o = none from if_pos h]
      simp only [needs] at h
      repeat' split
      all_goals first | rfl | (exfalso; omega)
    · rw [show readIe .fSeid o = _ from if_neg h]
      simp only [needs] at h
      rw [if_neg (by omega), if_neg (by omega), if_neg (by omega), if_neg (by omega), if_neg (by omega)]
      rfl
  | fTeid =>
    show (decFTeid (curAt o rest)).bind _ = _
    simp only [decFTeid, (Takes.num 1).then, (Takes.num 4).then, (Takes.v4 _).then, (Takes.v6 _).then, (Takes.opt _ _).then,
      f1, f2, f4, f8, numAt_drop, optAt_drop, List.length_drop, List.drop_drop]
    by_cases h : o.length < needs .fTeid o
    · rw [show readIe .fTeid o = none from if_pos h]
      simp only [needs] at h
      cases hb : bitAt o 2 <;> rw [hb] at h <;> simp only [Bool.false_eq_true, if_false, if_true, not_true_eq_false, not_false_eq_true] at h ⊢
      all_goals
        repeat' split
        all_goals first | rfl | (exfalso; omega)
    · rw [show readIe .fTeid o = _ from if_neg h]
      simp only [needs] at h
      cases hb : bitAt o 2 <;> rw [hb] at h <;> simp only [Bool.false_eq_true, if_false, if_true, not_true_eq_false, not_false_eq_true] at h ⊢
      · rw [if_neg (by omega), if_neg (by omega), if_neg (by omega), if_neg (by omega)]
        rfl
      · rw [if_neg (by omega), if_neg (by omega)]
        rfl
  | applyAction =>
    show (if o.length < 1 then _ else (decBits 2 (curAt o rest)).bind _) = _
    rw [decBits_curAt]
    by_cases h : o.length < 1
    · rw [if_pos h, show readIe .applyAction o = none from if_pos h]; rfl
    · rw [if_neg h, show readIe .applyAction o = _ from if_neg h]
      simp only [orInvalid, padded, Res.bind_ok', List.length_take]
      rw [show 2 - min 2 o.length = 2 - o.length by omega]
  | networkInst => exact absurd rfl hname
  | ohc =>
    show (decOhc (curAt o rest)).bind _ = _
    simp only [decOhc, (Takes.raw 2).then]
    by_cases h : o.length < needs .ohc o
    · rw [show readIe .ohc o = none from if_pos h]
      simp only [needs] at h
      split
      · rfl
      · rename_i h2
        rw [ohcParts_eq (by rw [List.length_take]; omega), announces_take]
        simp only [Res.bind_ok', (Takes.v4 _).then, (Takes.v6 _).then, (Takes.opt _ _).then, List.length_drop]
        repeat' split
        all_goals first | rfl | (exfalso; omega)
    · rw [show readIe .ohc o = _ from if_neg h]
      simp only [needs] at h
      rw [if_neg (by omega), ohcParts_eq (by rw [List.length_take]; omega), announces_take]
      simp only [Res.bind_ok', (Takes.v4 _).then, (Takes.v6 _).then, (Takes.opt _ _).then, List.length_drop, numAt_drop,
        optAt_drop, List.drop_drop]
      rw [if_neg (by omega), if_neg (by omega), if_neg (by omega), if_neg (by omega), if_neg (by omega), if_neg (by omega)]
      simp only [orInvalid, ohcAt, ipsAt, Res.bind_ok', Nat.add_zero, Nat.add_assoc]
  | apr =>
    show (decApr (curAt o rest)).bind _ = _
    have hnul := hnul rfl
    rw [show readIe .apr o = _ from if_neg (Nat.not_lt_zero _)]
    simp only [decApr, curAt]
    rw [show readCStr (o ++ rest) = .ok (cstr (o ++ rest)) from if_pos hnul]
    simp only [Res.bind_ok', orInvalid, cstr]
    rw [takeWhile_take]
  | ohr =>
    show (decOhr (curAt o rest)).bind _ = _
    simp only [decOhr, (Takes.num 1).then]
    by_cases h : o.length < 1
    · rw [if_pos h, show readIe .ohr o = none from if_pos h]; rfl
    · rw [if_neg h, show readIe .ohr o = _ from if_neg h]
      have hrem : (curAt (o.drop 1) rest).rem = o.length - 1 := by simp [curAt]
      rw [hrem]
      by_cases h1 : 1 < o.length
      · rw [if_pos (by omega), if_neg (by rw [List.length_drop]; omega)]
        simp [orInvalid, optAt, h1, numAt]
      · rw [if_neg (by omega)]
        simp [orInvalid, optAt, h1]
  | ueIp =>
    show (decUeIp (curAt o rest)).bind _ = _
    simp only [decUeIp, (Takes.num 1).then, (Takes.v4 _).then, (Takes.v6 _).then, (Takes.opt _ _).then,
      f1, f2, f4, f8, f16, f32, f64, numAt_drop, optAt_drop, List.length_drop, List.drop_drop]
    by_cases h : o.length < needs .ueIp o
    · rw [show readIe .ueIp o = none from if_pos h]
      simp only [needs] at h
      repeat' split
      all_goals first | rfl | (exfalso; omega)
    · rw [show readIe .ueIp o = _ from if_neg h]
      simp only [needs] at h
      rw [if_neg (by omega), if_neg (by omega), if_neg (by omega), if_neg (by omega), if_neg (by omega)]
      simp only [orInvalid, ueIpAt, ipsAt, Res.bind_ok', Nat.add_zero, Nat.add_assoc]

/-- Both outcomes occur: an F-TEID with IPv4 address and a surplus octet; one whose address is cut off. -/
example : readIe .fTeid [1, 0, 0, 0, 9, 127, 0, 0, 1, 0xff] =
    some (.fTeid (.fixed 9 { v4Present := true, v4 := .inet 0x7f000001 0, v6Present := false, v6 := .unspec })) := by decide
example : readIe .fTeid [1, 0, 0, 0, 9, 127, 0, 0] = none := by decide
example : readIe .nodeId [0, 127, 0, 0, 1, 0] = none := by decide

/-! ### C41: names that end before the IE does -/

theorem apn_terminated (ls : List (List UInt8)) (h : ∀ l ∈ ls, l ≠ [] ∧ l.length ≤ 255) (x : List UInt8) :
    apnToStr (labelOctets ls ++ 0 :: x) (labelOctets ls ++ 0 :: x).length =
      .ok (ls.flatMap fun l => l ++ [46]) := by
  induction ls with
  | nil =>
    rw [apnToStr]
    simp only [labelOctets, List.flatMap_nil, List.nil_append, rd_zero_cons, List.length_cons]
    rw [if_neg (by omega), if_pos trivial]
  | cons l ls ih =>
    obtain ⟨hne, hlt⟩ := h l (by simp)
    have ih := ih (fun y hy => h y (by simp [hy]))
    have hn : (octet l.length).toNat = l.length := by
      simp [octet, UInt8.toNat_ofNat', Nat.mod_eq_of_lt (by omega : l.length < 256)]
    have hz : octet l.length ≠ 0 := by
      intro e; have := congrArg UInt8.toNat e; rw [hn] at this; simp at this; exact hne this
    have e1 : labelOctets (l :: ls) ++ 0 :: x = octet l.length :: (l ++ (labelOctets ls ++ 0 :: x)) := by
      simp [labelOctets]
    rw [e1]
    have hy : (labelOctets ls ++ 0 :: x).length ≠ 0 := by simp
    generalize labelOctets ls ++ 0 :: x = y at ih hy ⊢
    rw [apnToStr]
    simp only [rd_zero_cons, List.length_cons, List.length_append, hn]
    rw [if_neg (by omega), if_neg hz, if_neg (by omega)]
    have e2 : rdN (octet l.length :: (l ++ y)) 1 l.length = .ok l := by
      rw [rdN_ok (by simp; omega)]; simp
    have e3 : (octet l.length :: (l ++ y)).drop (l.length + 1) = y := by simp
    rw [e2, e3]
    simp only [Res.bind_ok']
    rw [show l.length + y.length + 1 - (l.length + 1) = y.length by omega, ih]
    simp [dot, hy]

/-- C41: a zero octet in place of a label ends the name, and leaves a dot behind the last label. -/
theorem C41_zero_octet (ls : List (List UInt8)) (h : ∀ l ∈ ls, IsLabel l) (x rest : List UInt8)
    (hl : (labelOctets ls ++ 0 :: x).length ≤ 254) :
    ieDec .networkInst (labelOctets ls ++ 0 :: x ++ rest) (labelOctets ls ++ 0 :: x).length =
      .ok (.networkInst (ls.flatMap fun l => l ++ [46])) := by
  have hls : ∀ l ∈ ls, l ≠ [] ∧ l.length ≤ 255 := by
    intro l hm
    refine ⟨(h l hm).1, ?_⟩
    have : (octet l.length :: l).length ≤ (labelOctets ls).length := by
      rw [labelOctets, List.flatMap_def]
      exact (List.sublist_flatten_of_mem (List.mem_map_of_mem (f := fun l => octet l.length :: l) hm)).length_le
    simp only [List.length_append, List.length_cons] at this hl
    omega
  show (decName (curAt (labelOctets ls ++ 0 :: x) rest)).bind _ = _
  have e := (apnToStr_append (labelOctets ls ++ 0 :: x).length (labelOctets ls ++ 0 :: x) rest rfl).1
  have e2 := apn_terminated ls hls x
  rw [decName, if_neg (by show ¬ ((labelOctets ls ++ 0 :: x).length < 1 ∨ 254 < (labelOctets ls ++ 0 :: x).length); simp at hl ⊢; omega)]
  simp only [curAt]
  rw [e, e2]
  have hlen : (ls.flatMap fun l => l ++ [46]).length = (labelOctets ls).length := by
    simp [labelOctets, List.length_flatMap]
  have hnz : cstr (ls.flatMap fun l => l ++ [46]) = ls.flatMap fun l => l ++ [46] := by
    refine cstr_of_noNul ?_
    intro h0
    obtain ⟨l, hm, hx⟩ := List.mem_flatMap.mp h0
    rcases List.mem_append.mp hx with hx | hx
    · exact (h l hm).2.2 hx
    · simp at hx
  simp only [Res.bind_ok']
  rw [if_neg (by simp only [List.length_append, List.length_cons] at hl; omega)]
  simp only [Res.bind_ok', hnz]

/-! ### C44: F-SEID; failure -/

/-- C44: osmo_pfcp_ie_f_seid_set() gives an F-SEID with the SEID and just the address, without its port. -/
theorem C44_f_seid_set (seid a p : Nat) :
    fSeidSet seid (.inet a p) = { seid := seid, ip := { v4Present := true, v4 := .inet a 0, v6Present := false, v6 := .unspec } } ∧
    fSeidSet seid (.inet6 a p) = { seid := seid, ip := { v4Present := false, v4 := .unspec, v6Present := true, v6 := .inet6 a 0 } } ∧
    fSeidSet seid .unspec = { seid := seid, ip := { v4Present := false, v4 := .unspec, v6Present := false, v6 := .unspec } } :=
  ⟨rfl, rfl, rfl⟩

/-- C44: osmo_pfcp_ip_addrs_get_str() fails if an address that it is to convert is neither IPv4 nor IPv6. -/
theorem C44_get_str_fails (src : IpAddrs) (v4 v6 : Option IpAddrs.AddrStr)
    (h : v4 ≠ none ∧ src.v4Present = true ∧ src.v4.isInet = false ∧ src.v4.isInet6 = false ∨
      (v4 = none ∨ src.v4Present = false) ∧ v6 ≠ none ∧ src.v6Present = true ∧ src.v6.isInet = false ∧ src.v6.isInet6 = false) :
    ∃ x, IpAddrs.getStr v4 v6 src = .err .EINVAL x := by
  have hs : ∀ a : Sockaddr, a.isInet = false → a.isInet6 = false → IpAddrs.strFrom a = .err .EINVAL .empty := by
    intro a h1 h2
    cases a <;> first | rfl | (simp [Sockaddr.isInet, Sockaddr.isInet6] at h1 h2)
  rcases h with ⟨h1, h2, h3, h4⟩ | ⟨h1, h2, h3, h4, h5⟩
  · cases v4 with
    | none => exact absurd rfl h1
    | some s => simp [IpAddrs.getStr, h2, hs _ h3 h4]
  · cases v6 with
    | none => exact absurd rfl h2
    | some s =>
      cases v4 with
      | none => simp [IpAddrs.getStr, h3, hs _ h4 h5]
      | some s =>
        rcases h1 with h1 | h1
        · cases h1
        · simp [IpAddrs.getStr, h1, h3, hs _ h4 h5]

end Verif.Props
