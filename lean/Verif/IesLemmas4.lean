/- How many octets the IE decoders need (no property theorems here). -/
import Verif.IesLemmas3

namespace Verif
open Verif.Spec

/-- `f` takes exactly `n` octets, or fails with EINVAL if there are not so many. -/
def Takes' {α} (f : Cur → Res (α × Cur)) (n : Nat) : Prop :=
  ∀ v rest, (v.length < n → f (curAt v rest) = .err .EINVAL) ∧
    (n ≤ v.length → ∃ a, f (curAt v rest) = .ok (a, curAt (v.drop n) rest))

/-- `f` succeeds exactly if there are `n` octets, otherwise it fails with EINVAL. -/
def Reads {α} (f : Cur → Res α) (n : Nat) : Prop :=
  ∀ v rest, (v.length < n → f (curAt v rest) = .err .EINVAL) ∧
    (n ≤ v.length → ∃ a, f (curAt v rest) = .ok a)

theorem Takes'.raw (k : Nat) : Takes' (Cur.raw k) k := by
  intro v rest
  refine ⟨fun h => by rw [raw_curAt, if_pos h], fun h => ⟨_, by rw [raw_curAt, if_neg (by omega)]⟩⟩

theorem Takes'.num (k : Nat) : Takes' (Cur.num k) k := by
  intro v rest
  refine ⟨fun h => by rw [num_curAt, if_pos h], fun h => ⟨_, by rw [num_curAt, if_neg (by omega)]⟩⟩

theorem Takes'.skip {α} (a : α) : Takes' (fun c => .ok (a, c)) 0 := by
  intro v rest
  exact ⟨fun h => absurd h (by omega), fun _ => ⟨a, by simp⟩⟩

theorem Takes'.map {α β} {f : Cur → Res (α × Cur)} {n : Nat} (hf : Takes' f n) (g : α → β) :
    Takes' (fun c => (f c).bind fun (a, c) => .ok (g a, c)) n := by
  intro v rest
  refine ⟨fun h => by simp only [(hf v rest).1 h]; rfl, fun h => ?_⟩
  obtain ⟨a, e⟩ := (hf v rest).2 h
  exact ⟨g a, by simp only [e, Res.bind_ok']⟩

theorem Takes'.opt (p : Bool) (k : Nat) : Takes' (Cur.opt p k) (ifBit p k) := by
  cases p
  · exact Takes'.skip 0
  · exact Takes'.num k

theorem Takes'.v4 (p : Bool) : Takes' (Cur.v4 p) (ifBit p 4) := by
  cases p
  · exact Takes'.skip _
  · exact (Takes'.num 4).map fun a => Sockaddr.inet a 0

theorem Takes'.v6 (p : Bool) : Takes' (Cur.v6 p) (ifBit p 16) := by
  cases p
  · exact Takes'.skip _
  · exact (Takes'.num 16).map fun a => Sockaddr.inet6 a 0

theorem Reads.bind {α β} {f : Cur → Res (α × Cur)} {g : α × Cur → Res β} {n m : Nat} (hf : Takes' f n)
    (hg : ∀ a, Reads (fun c => g (a, c)) m) : Reads (fun c => (f c).bind g) (n + m) := by
  intro v rest
  constructor
  · intro h
    by_cases hn : v.length < n
    · simp only [(hf v rest).1 hn]; rfl
    · obtain ⟨a, e⟩ := (hf v rest).2 (by omega)
      simp only [e, Res.bind_ok']
      exact (hg a (v.drop n) rest).1 (by simp; omega)
  · intro h
    obtain ⟨a, e⟩ := (hf v rest).2 (by omega)
    simp only [e, Res.bind_ok']
    exact (hg a (v.drop n) rest).2 (by simp; omega)

theorem Reads.ret {α} (a : α) : Reads (fun _ => .ok a) 0 := by
  intro v rest
  exact ⟨fun h => absurd h (by omega), fun _ => ⟨a, rfl⟩⟩

theorem Reads.map {α β} {f : Cur → Res α} {n : Nat} (hf : Reads f n) (g : α → β) :
    Reads (fun c => (f c).bind fun a => .ok (g a)) n := by
  intro v rest
  refine ⟨fun h => by simp only [(hf v rest).1 h]; rfl, fun h => ?_⟩
  obtain ⟨a, e⟩ := (hf v rest).2 h
  exact ⟨g a, by simp only [e, Res.bind_ok']⟩

theorem num1_cons (b : UInt8) (v rest : List UInt8) :
    (curAt (b :: v) rest).num 1 = .ok (b.toNat, curAt v rest) := by
  rw [num_curAt, if_neg (by simp)]
  simp [loadBE_cons]

/-- For a decoder that starts with an octet of flags. -/
theorem flags_reads {β} {g : Nat × Cur → Res β} {m : Nat → Nat} (hg : ∀ f, f < 256 → Reads (fun c => g (f, c)) (m f))
    (v rest : List UInt8) :
    (v.length < 1 + m ((v.map UInt8.toNat).headD 0) → ((curAt v rest).num 1).bind g = .err .EINVAL) ∧
    (1 + m ((v.map UInt8.toNat).headD 0) ≤ v.length → ∃ a, ((curAt v rest).num 1).bind g = .ok a) := by
  cases v with
  | nil =>
    refine ⟨fun _ => ?_, fun h => by simp at h⟩
    rw [num_curAt, if_pos (by simp)]; rfl
  | cons b v =>
    rw [num1_cons]
    have := hg b.toNat b.toNat_lt v rest
    refine ⟨fun h => this.1 (by simp at h; omega), fun h => this.2 (by simp at h; omega)⟩

theorem bitAt_head (v : List UInt8) (i : Nat) (hi : i < 8) :
    bitAt v i = ((v.map UInt8.toNat).headD 0).testBit i := by
  have e : i / 8 = 0 := by omega
  have e2 : i % 8 = i := by omega
  cases v <;> simp [bitAt, e, e2]

/-- The decoders that succeed exactly if the IE is at least as long as it announces. -/
def AtLeast : IeKind → Prop
  | .cause | .offendingIe | .nodeId | .networkInst | .apr => False
  | _ => True

theorem dec_needs (k : IeKind) (hk : AtLeast k) (v : List UInt8) :
    (v.length < needs k v → ieDec k v v.length = .err .EINVAL) ∧
    (needs k v ≤ v.length → ∃ a, ieDec k v v.length = .ok a) := by
  have al (n : Nat) : Reads (decAtLeast n) n := Reads.bind (m := 0) (Takes'.num n) fun a => Reads.ret _
  have use {f : Cur → Res IeVal} {n : Nat} (h : Reads f n) :
      (v.length < n → f ⟨v, v.length⟩ = .err .EINVAL) ∧ (n ≤ v.length → ∃ a, f ⟨v, v.length⟩ = .ok a) := by
    have := h v []
    simpa [curAt] using this
  cases k with
  | cause => exact hk.elim
  | offendingIe => exact hk.elim
  | nodeId => exact hk.elim
  | networkInst => exact hk.elim
  | apr => exact hk.elim
  | u8 => exact use ((al 1).map _)
  | u16 => exact use ((al 2).map _)
  | u32 => exact use ((al 4).map _)
  | ifaceType => exact use ((al 1).map fun v => IeVal.ifaceType (v &&& 0x3f))
  | sourceIface => exact use ((al 1).map fun v => IeVal.sourceIface (v &&& 0xf))
  | destIface => exact use ((al 1).map fun v => IeVal.destIface (v &&& 0xf))
  | cpFeatures => exact use (Reads.bind (m := 0) (Takes'.raw 1) fun a => Reads.ret _)
  | upFeatures =>
    refine ⟨fun h => by simp [needs] at h, fun _ => ?_⟩
    have e := decBits_curAt 6 v []
    simp only [curAt, List.append_nil] at e
    exact ⟨_, by simp only [ieDec, e]; rfl⟩
  | applyAction =>
    refine ⟨fun h => by simp only [needs] at h; simp only [ieDec]; rw [if_pos h], fun h => ?_⟩
    simp only [needs] at h
    have e := decBits_curAt 2 v []
    simp only [curAt, List.append_nil] at e
    exact ⟨.applyAction (v.take 2 ++ List.replicate (2 - (v.take 2).length) 0), by
      simp only [ieDec]; rw [if_neg (by omega), e]; rfl⟩
  | fSeid =>
    have key := flags_reads (β := FSeid) (m := fun f => 8 + (ifBit (f.testBit 1) 4 + (ifBit (f.testBit 0) 16 + 0)))
      (g := fun (flags, c) =>
        (c.num 8).bind fun (seid, c) =>
        (c.v4 (flag flags 2)).bind fun (v4, c) =>
        (c.v6 (flag flags 1)).bind fun (v6, _) =>
        .ok { seid := seid, ip := { v4Present := flag flags 2, v4, v6Present := flag flags 1, v6 } })
      (fun f _ => by
        rw [← flag_1, ← flag_2]
        refine Reads.bind (Takes'.num 8) fun _ => ?_; dsimp only
        refine Reads.bind (Takes'.v4 _) fun _ => ?_; dsimp only
        refine Reads.bind (Takes'.v6 _) fun _ => ?_; dsimp only
        exact Reads.ret _) v []
    simp only [needs, bitAt_head v _ (by omega : 0 < 8), bitAt_head v _ (by omega : 1 < 8), ieDec, decFSeid]
    simp only [curAt, List.append_nil] at key
    by_cases h9 : v.length < 9
    · rw [if_pos h9]
      exact ⟨fun _ => rfl, fun h => absurd h (by omega)⟩
    · rw [if_neg h9]
      constructor
      · intro h; have := key.1 (by omega); rw [this]; rfl
      · intro h; obtain ⟨a, e⟩ := key.2 (by omega); exact ⟨.fSeid a, by rw [e]; rfl⟩
  | fTeid =>
    have key := flags_reads (β := FTeid)
      (m := fun f => if f.testBit 2 then ifBit (f.testBit 3) 1 + 0
        else 4 + (ifBit (f.testBit 0) 4 + (ifBit (f.testBit 1) 16 + 0)))
      (g := fun (flags, c) =>
        if ¬ flag flags 4 then
          (c.num 4).bind fun (teid, c) =>
          (c.v4 (flag flags 1)).bind fun (v4, c) =>
          (c.v6 (flag flags 2)).bind fun (v6, _) =>
          .ok (.fixed teid { v4Present := flag flags 1, v4, v6Present := flag flags 2, v6 })
        else
          (c.opt (flag flags 8) 1).bind fun (id, _) =>
          .ok (.choose (flag flags 1) (flag flags 2) (flag flags 8) id))
      (fun f _ => by
        rw [← flag_1, ← flag_2, ← flag_4, ← flag_8]
        cases hch : flag f 4
        · simp only [hch, Bool.false_eq_true, not_false_eq_true, if_true, if_false]
          refine Reads.bind (Takes'.num 4) fun _ => ?_; dsimp only
          refine Reads.bind (Takes'.v4 _) fun _ => ?_; dsimp only
          refine Reads.bind (Takes'.v6 _) fun _ => ?_; dsimp only
          exact Reads.ret _
        · simp only [hch, not_true_eq_false, if_true, if_false]
          refine Reads.bind (Takes'.opt _ 1) fun _ => ?_; dsimp only
          exact Reads.ret _) v []
    simp only [needs, bitAt_head v _ (by omega : 0 < 8), bitAt_head v _ (by omega : 1 < 8),
      bitAt_head v _ (by omega : 2 < 8), bitAt_head v _ (by omega : 3 < 8), ieDec, decFTeid]
    simp only [curAt, List.append_nil] at key
    generalize ((v.map UInt8.toNat).headD 0) = F at key ⊢
    constructor
    · intro h; have := key.1 (by split at h <;> simp_all <;> omega); rw [this]; rfl
    · intro h; obtain ⟨a, e⟩ := key.2 (by split at h <;> simp_all <;> omega); exact ⟨.fTeid a, by rw [e]; rfl⟩
  | ohc =>
    have ha : 2 ≤ v.length → announces (v.take 2) = announces v := by
      intro hl
      have h0 (i : Nat) (hi : i < 8) : bitAt (v.take 2) i = bitAt v i := by
        rw [bitAt_head _ _ hi, bitAt_head _ _ hi]
        match v, hl with
        | a :: b :: w, _ => rfl
      simp [announces, h0]
    by_cases hl : v.length < 2
    · refine ⟨fun _ => ?_, fun h => absurd h (by simp only [needs]; omega)⟩
      have := raw_curAt 2 v []
      simp only [curAt, List.append_nil] at this
      simp [ieDec, decOhc, this, hl]
    · have hp : ohcParts (v.take 2) = .ok (announces v) := by
        rw [← ha (by omega)]; exact ohcParts_eq (by simp; omega)
      have key : Reads (fun c =>
        (c.opt (announces v).teid 4).bind fun (teid, c) =>
        (c.v4 (announces v).v4).bind fun (v4, c) =>
        (c.v6 (announces v).v6).bind fun (v6, c) =>
        (c.opt (announces v).port 2).bind fun (port, c) =>
        (c.opt (announces v).cTag 3).bind fun (cTag, c) =>
        (c.opt (announces v).sTag 3).bind fun (sTag, _) =>
        .ok ({ desc := v.take 2, teidPresent := (announces v).teid, teid := teid
               ip := { v4Present := (announces v).v4, v4, v6Present := (announces v).v6, v6 }
               portPresent := (announces v).port, port := port
               cTagPresent := (announces v).cTag, cTag := cTag,
               sTagPresent := (announces v).sTag, sTag := sTag } : Ohc))
          (ifBit (announces v).teid 4 + (ifBit (announces v).v4 4 + (ifBit (announces v).v6 16
            + (ifBit (announces v).port 2 + (ifBit (announces v).cTag 3 + (ifBit (announces v).sTag 3 + 0)))))) := by
        refine Reads.bind (Takes'.opt _ 4) fun _ => ?_; dsimp only
        refine Reads.bind (Takes'.v4 _) fun _ => ?_; dsimp only
        refine Reads.bind (Takes'.v6 _) fun _ => ?_; dsimp only
        refine Reads.bind (Takes'.opt _ 2) fun _ => ?_; dsimp only
        refine Reads.bind (Takes'.opt _ 3) fun _ => ?_; dsimp only
        refine Reads.bind (Takes'.opt _ 3) fun _ => ?_; dsimp only
        exact Reads.ret _
      have key := key (v.drop 2) []
      have hraw := raw_curAt 2 v []
      rw [if_neg hl] at hraw
      have e : ieDec .ohc v v.length = (decOhc (curAt v [])).bind fun v => .ok (.ohc v) := by
        simp [ieDec, curAt]
      rw [e]
      simp only [decOhc, hraw, Res.bind_ok', hp]
      simp only [needs]
      constructor
      · intro h
        have := key.1 (by simp; omega)
        dsimp only at this ⊢
        rw [this]; rfl
      · intro h
        obtain ⟨a, e⟩ := key.2 (by simp; omega)
        dsimp only at e ⊢
        exact ⟨.ohc a, by rw [e]; rfl⟩
  | ohr =>
    cases v with
    | nil => exact ⟨fun _ => by simp [ieDec, decOhr, Cur.num, Cur.raw], fun h => by simp [needs] at h⟩
    | cons b v =>
      refine ⟨fun h => by simp [needs] at h, fun _ => ?_⟩
      have h1 := num1_cons b v []
      simp only [curAt, List.append_nil] at h1
      simp only [ieDec, decOhr, h1, Res.bind_ok']
      cases v with
      | nil => simp
      | cons d v =>
        have h2 := num1_cons d v []
        simp only [curAt, List.append_nil] at h2
        simp only [h2, Res.bind_ok']
        rw [if_pos (by simp)]
        exact ⟨_, rfl⟩
  | ueIp =>
    have key := flags_reads (β := UeIp)
      (m := fun f => ifBit (f.testBit 1) 4 + (ifBit (f.testBit 0) 16 + (ifBit (f.testBit 3) 1 + (ifBit (f.testBit 6) 1 + 0))))
      (g := fun (flags, c) =>
        (c.v4 (flag flags 2)).bind fun (v4, c) =>
        (c.v6 (flag flags 1)).bind fun (v6, c) =>
        (c.opt (flag flags 8) 1).bind fun (deleg, c) =>
        (c.opt (flag flags 64) 1).bind fun (plen, _) =>
        .ok { chv6 := flag flags 32, chv4 := flag flags 16, isDest := flag flags 4,
              ip := { v4Present := flag flags 2, v4, v6Present := flag flags 1, v6 },
              delegPresent := flag flags 8, deleg, plenPresent := flag flags 64, plen })
      (fun f _ => by
        rw [← flag_1, ← flag_2, ← flag_8, ← flag_64]
        refine Reads.bind (Takes'.v4 _) fun _ => ?_; dsimp only
        refine Reads.bind (Takes'.v6 _) fun _ => ?_; dsimp only
        refine Reads.bind (Takes'.opt _ 1) fun _ => ?_; dsimp only
        refine Reads.bind (Takes'.opt _ 1) fun _ => ?_; dsimp only
        exact Reads.ret _) v []
    simp only [needs, bitAt_head v _ (by omega : 0 < 8), bitAt_head v _ (by omega : 1 < 8),
      bitAt_head v _ (by omega : 3 < 8), bitAt_head v _ (by omega : 6 < 8), ieDec, decUeIp]
    simp only [curAt, List.append_nil] at key
    constructor
    · intro h; have := key.1 (by omega); rw [this]; rfl
    · intro h; obtain ⟨a, e⟩ := key.2 (by omega); exact ⟨.ueIp a, by rw [e]; rfl⟩

end Verif
