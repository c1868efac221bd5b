/- Locality and canonical form of the IE codecs (no property theorems here). -/
import Verif.IesLemmas2

namespace Verif
open Verif.Spec

/-- A position in an IE of which the octets `v` remain, with `rest` behind the IE. -/
def curAt (v rest : List UInt8) : Cur := ⟨v ++ rest, v.length⟩

theorem raw_curAt (k : Nat) (v rest : List UInt8) :
    (curAt v rest).raw k = if v.length < k then .err .EINVAL else .ok (v.take k, curAt (v.drop k) rest) := by
  by_cases h : v.length < k
  · rw [if_pos h, Cur.raw, if_pos (show (curAt v rest).rem < k from h)]
  · rw [if_neg h, Cur.raw, if_neg (show ¬ (curAt v rest).rem < k from h)]
    simp only [curAt]
    rw [rdN_ok (by simp; omega)]
    simp only [List.drop_zero, Res.bind_ok', List.length_drop]
    rw [List.take_append_of_le_length (by omega), List.drop_append_of_le_length (by omega)]

theorem num_curAt (k : Nat) (v rest : List UInt8) :
    (curAt v rest).num k =
      if v.length < k then .err .EINVAL else .ok (loadBE (v.take k), curAt (v.drop k) rest) := by
  simp only [Cur.num, raw_curAt]
  split <;> rfl

/-- `f` looks at the octets of the IE only, returns, and moves the position inside the IE. -/
def LocalStep {α} (f : Cur → Res (α × Cur)) : Prop :=
  ∀ v, ∃ r : Res (α × List UInt8), r.Returns ∧
    ∀ rest, f (curAt v rest) = r.bind fun (a, x) => .ok (a, curAt x rest)

/-- `f` looks at the octets of the IE only, and returns. -/
def Local {α} (f : Cur → Res α) : Prop :=
  ∀ v, ∃ r : Res α, r.Returns ∧ ∀ rest, f (curAt v rest) = r

theorem LocalStep.raw (k : Nat) : LocalStep (Cur.raw k) := by
  intro v
  by_cases h : v.length < k
  · exact ⟨.err .EINVAL, trivial, fun rest => by simp [raw_curAt, h]⟩
  · exact ⟨.ok (v.take k, v.drop k), trivial, fun rest => by simp [raw_curAt, h]⟩

theorem LocalStep.num (k : Nat) : LocalStep (Cur.num k) := by
  intro v
  by_cases h : v.length < k
  · exact ⟨.err .EINVAL, trivial, fun rest => by simp [num_curAt, h]⟩
  · exact ⟨.ok (loadBE (v.take k), v.drop k), trivial, fun rest => by simp [num_curAt, h]⟩

theorem LocalStep.skip {α} (a : α) : LocalStep (fun c => .ok (a, c)) :=
  fun v => ⟨.ok (a, v), trivial, fun _ => rfl⟩

theorem LocalStep.opt (p : Bool) (k : Nat) : LocalStep (Cur.opt p k) := by
  cases p
  · exact LocalStep.skip 0
  · exact LocalStep.num k

theorem LocalStep.map {α β} {f : Cur → Res (α × Cur)} (hf : LocalStep f) (g : α → β) :
    LocalStep (fun c => (f c).bind fun (a, c) => .ok (g a, c)) := by
  intro v
  obtain ⟨r, hr, h⟩ := hf v
  refine ⟨r.bind fun (a, x) => .ok (g a, x), ?_, fun rest => ?_⟩
  · cases r <;> first | trivial | exact hr
  · simp only [h]; cases r <;> rfl

theorem LocalStep.v4 (p : Bool) : LocalStep (Cur.v4 p) := by
  cases p
  · exact LocalStep.skip _
  · exact (LocalStep.num 4).map fun a => Sockaddr.inet a 0

theorem LocalStep.v6 (p : Bool) : LocalStep (Cur.v6 p) := by
  cases p
  · exact LocalStep.skip _
  · exact (LocalStep.num 16).map fun a => Sockaddr.inet6 a 0

theorem Local.bind {α β} {f : Cur → Res (α × Cur)} {g : α × Cur → Res β} (hf : LocalStep f)
    (hg : ∀ a, Local (fun c => g (a, c))) : Local (fun c => (f c).bind g) := by
  intro v
  obtain ⟨r, hr, h⟩ := hf v
  cases r with
  | ok ax =>
    obtain ⟨a, x⟩ := ax
    obtain ⟨r', hr', h'⟩ := hg a x
    exact ⟨r', hr', fun rest => by simp only [h, Res.bind_ok', h']⟩
  | err e => exact ⟨.err e, trivial, fun rest => by simp only [h, Res.bind_err']⟩
  | abort => exact hr.elim
  | ub => exact hr.elim
  | diverge => exact hr.elim

theorem Local.ret {α} (a : α) : Local (fun _ => .ok a) := fun _ => ⟨.ok a, trivial, fun _ => rfl⟩

theorem Local.err {α} (e) : Local (fun _ => (.err e : Res α)) := fun _ => ⟨.err e, trivial, fun _ => rfl⟩

theorem Local.map {α β} {f : Cur → Res α} (hf : Local f) (g : α → β) :
    Local (fun c => (f c).bind fun a => .ok (g a)) := by
  intro v
  obtain ⟨r, hr, h⟩ := hf v
  refine ⟨r.bind fun a => .ok (g a), ?_, fun rest => by simp only [h]⟩
  cases r <;> first | trivial | exact hr

/-- A check of the remaining length. -/
theorem Local.check {α} {f g : Cur → Res α} (p : Nat → Prop) [DecidablePred p] (hf : Local f) (hg : Local g) :
    Local (fun c => if p c.rem then f c else g c) := by
  intro v
  by_cases h : p v.length
  · obtain ⟨r, hr, e⟩ := hf v
    exact ⟨r, hr, fun rest => by
      show (if p (curAt v rest).rem then _ else _) = r
      rw [if_pos (show p (curAt v rest).rem from h), e]⟩
  · obtain ⟨r, hr, e⟩ := hg v
    exact ⟨r, hr, fun rest => by
      show (if p (curAt v rest).rem then _ else _) = r
      rw [if_neg (show ¬ p (curAt v rest).rem from h), e]⟩

theorem Local.ite {α} {f g : Cur → Res α} (p : Prop) [Decidable p] (hf : Local f) (hg : Local g) :
    Local (fun c => if p then f c else g c) := by
  by_cases h : p
  · simpa [h] using hf
  · simpa [h] using hg

theorem apnToStr_append (n : Nat) : ∀ (v rest : List UInt8), v.length = n →
    apnToStr (v ++ rest) n = apnToStr v n ∧ (apnToStr v n).Returns := by
  induction n using Nat.strongRecOn with
  | _ n ih =>
    intro v rest hv
    rw [apnToStr, apnToStr]
    by_cases h0 : n = 0
    · simp [h0, Res.Returns]
    · obtain ⟨b, v, rfl⟩ := List.exists_cons_of_length_pos (by omega : 0 < v.length)
      simp only [h0, if_false, List.cons_append, rd_zero_cons]
      by_cases hb : b = 0
      · simp [hb, Res.Returns]
      · simp only [hb, if_false]
        by_cases hlt : n < b.toNat + 1
        · simp [hlt, Res.Returns]
        · simp only [hlt, if_false]
          have hv' : v.length + 1 = n := by simpa using hv
          have e1 : rdN (b :: (v ++ rest)) 1 b.toNat = .ok (v.take b.toNat) := by
            rw [rdN_ok (by simp; omega)]
            simp only [List.drop_succ_cons, List.drop_zero]
            rw [List.take_append_of_le_length (by omega)]
          have e2 : rdN (b :: v) 1 b.toNat = .ok (v.take b.toNat) := by
            rw [rdN_ok (by simp; omega)]; simp
          have e3 : (b :: (v ++ rest)).drop (b.toNat + 1) = v.drop b.toNat ++ rest := by
            simp only [List.drop_succ_cons]
            rw [List.drop_append_of_le_length (by omega)]
          have e4 : (b :: v).drop (b.toNat + 1) = v.drop b.toNat := by simp
          rw [e1, e2, e3, e4]
          simp only [Res.bind_ok']
          have hpos : b.toNat ≠ 0 := by
            intro e; exact hb (UInt8.toNat_inj.mp (by simpa using e))
          obtain ⟨i1, i2⟩ := ih (n - (b.toNat + 1)) (by omega) (v.drop b.toNat) rest (by simp; omega)
          rw [i1]
          refine ⟨rfl, ?_⟩
          cases h : apnToStr (v.drop b.toNat) (n - (b.toNat + 1)) <;> rw [h] at i2 <;>
            first | trivial | exact i2

theorem Local.name : Local decName := by
  intro v
  by_cases hv : v.length < 1 ∨ 254 < v.length
  · exact ⟨.err .ERANGE, trivial, fun rest => by
      rw [decName, if_pos (show (curAt v rest).rem < 1 ∨ 254 < (curAt v rest).rem from hv)]⟩
  · refine ⟨(apnToStr v v.length).bind fun s => .ok (cstr s), ?_, fun rest => ?_⟩
    · have := (apnToStr_append v.length v [] rfl).2
      cases h : apnToStr v v.length <;> rw [h] at this <;> first | trivial | exact this
    · have e := (apnToStr_append v.length v rest rfl).1
      rw [decName, if_neg (show ¬ ((curAt v rest).rem < 1 ∨ 254 < (curAt v rest).rem) from hv)]
      simp only [curAt]
      rw [e]
      cases h : apnToStr v v.length with
      | ok s => have := apnToStr_length h; simp only [Res.bind_ok']; rw [if_neg (by omega)]
      | _ => rfl

theorem decBits_curAt (k : Nat) (v rest : List UInt8) :
    decBits k (curAt v rest) = .ok (v.take k ++ List.replicate (k - (v.take k).length) 0) := by
  simp only [decBits, curAt]
  rw [rdN_ok (by simp; omega)]
  have : (List.drop 0 (v ++ rest)).take (min k v.length) = v.take k := by
    rw [List.drop_zero, List.take_append_of_le_length (by omega)]
    by_cases h : k ≤ v.length
    · rw [Nat.min_eq_left h]
    · rw [Nat.min_eq_right (by omega), List.take_of_length_le (Nat.le_refl _),
        List.take_of_length_le (by omega)]
  rw [this]; rfl

theorem Local.bits (k : Nat) : Local (decBits k) :=
  fun v => ⟨.ok _, trivial, fun rest => decBits_curAt k v rest⟩

theorem Local.exact (k : Nat) : Local (decExact k) :=
  Local.check (fun n => n ≠ k) (Local.err _) (Local.bind (LocalStep.num k) fun a => Local.ret a)

theorem Local.atLeast (k : Nat) : Local (decAtLeast k) :=
  Local.bind (LocalStep.num k) fun a => Local.ret a

theorem Local.nodeId : Local decNodeId := by
  refine Local.bind (LocalStep.num 1) fun t => ?_
  dsimp only
  refine Local.ite (t = 0) ?_ (Local.ite (t = 1) ?_ (Local.ite (t = 2) ?_ (Local.err _)))
  · exact Local.check (fun n => n ≠ 4) (Local.err _)
      (Local.bind (LocalStep.num 4) fun a => Local.ret (NodeId.v4 (.inet a 0)))
  · exact Local.check (fun n => n ≠ 16) (Local.err _)
      (Local.bind (LocalStep.num 16) fun a => Local.ret (NodeId.v6 (.inet6 a 0)))
  · exact Local.name.map NodeId.fqdn

theorem Local.fSeid : Local decFSeid := by
  refine Local.check (fun n => n < 9) (Local.err _) ?_
  refine Local.bind (LocalStep.num 1) fun _ => ?_; dsimp only
  refine Local.bind (LocalStep.num 8) fun _ => ?_; dsimp only
  refine Local.bind (LocalStep.v4 _) fun _ => ?_; dsimp only
  refine Local.bind (LocalStep.v6 _) fun _ => ?_; dsimp only
  exact Local.ret _

theorem Local.fTeid : Local decFTeid := by
  refine Local.bind (LocalStep.num 1) fun f => ?_; dsimp only
  refine Local.ite (¬ flag f 4 = true) ?_ ?_
  · refine Local.bind (LocalStep.num 4) fun _ => ?_; dsimp only
    refine Local.bind (LocalStep.v4 _) fun _ => ?_; dsimp only
    refine Local.bind (LocalStep.v6 _) fun _ => ?_; dsimp only
    exact Local.ret _
  · refine Local.bind (LocalStep.opt _ 1) fun _ => ?_; dsimp only
    exact Local.ret _

theorem Local.ohc : Local decOhc := by
  intro v
  have h := raw_curAt 2 v
  by_cases hl : v.length < 2
  · exact ⟨.err .EINVAL, trivial, fun rest => by simp [decOhc, h, hl]⟩
  · have hp : ohcParts (v.take 2) = .ok (announces (v.take 2)) := ohcParts_eq (by simp; omega)
    have key : Local (fun c =>
      (c.opt (announces (v.take 2)).teid 4).bind fun (teid, c) =>
      (c.v4 (announces (v.take 2)).v4).bind fun (v4, c) =>
      (c.v6 (announces (v.take 2)).v6).bind fun (v6, c) =>
      (c.opt (announces (v.take 2)).port 2).bind fun (port, c) =>
      (c.opt (announces (v.take 2)).cTag 3).bind fun (cTag, c) =>
      (c.opt (announces (v.take 2)).sTag 3).bind fun (sTag, _) =>
      .ok ({ desc := v.take 2, teidPresent := (announces (v.take 2)).teid, teid := teid
             ip := { v4Present := (announces (v.take 2)).v4, v4, v6Present := (announces (v.take 2)).v6, v6 }
             portPresent := (announces (v.take 2)).port, port := port
             cTagPresent := (announces (v.take 2)).cTag, cTag := cTag,
             sTagPresent := (announces (v.take 2)).sTag, sTag := sTag } : Ohc)) := by
      refine Local.bind (LocalStep.opt _ 4) fun _ => ?_; dsimp only
      refine Local.bind (LocalStep.v4 _) fun _ => ?_; dsimp only
      refine Local.bind (LocalStep.v6 _) fun _ => ?_; dsimp only
      refine Local.bind (LocalStep.opt _ 2) fun _ => ?_; dsimp only
      refine Local.bind (LocalStep.opt _ 3) fun _ => ?_; dsimp only
      refine Local.bind (LocalStep.opt _ 3) fun _ => ?_; dsimp only
      exact Local.ret _
    obtain ⟨r, hr, e⟩ := key (v.drop 2)
    refine ⟨r, hr, fun rest => ?_⟩
    simp only [decOhc, h, hl, if_false, Res.bind_ok', hp]
    exact e rest

theorem Local.ohr : Local decOhr := by
  refine Local.bind (LocalStep.num 1) fun _ => ?_; dsimp only
  refine Local.check (fun n => 0 < n) ?_ (Local.ret _)
  refine Local.bind (LocalStep.num 1) fun _ => ?_; dsimp only
  exact Local.ret _

theorem Local.ueIp : Local decUeIp := by
  refine Local.bind (LocalStep.num 1) fun _ => ?_; dsimp only
  refine Local.bind (LocalStep.v4 _) fun _ => ?_; dsimp only
  refine Local.bind (LocalStep.v6 _) fun _ => ?_; dsimp only
  refine Local.bind (LocalStep.opt _ 1) fun _ => ?_; dsimp only
  refine Local.bind (LocalStep.opt _ 1) fun _ => ?_; dsimp only
  exact Local.ret _

/-- Every decoder but one looks at the IE's octets only, and returns. -/
theorem ieDec_local (k : IeKind) (hk : k ≠ .apr) (v rest : List UInt8) :
    ieDec k (v ++ rest) v.length = ieDec k v v.length ∧ (ieDec k v v.length).Returns := by
  have key : Local (fun c => ieDec k c.mem c.rem) := by
    cases k with
    | cause => exact (Local.exact 1).map _
    | offendingIe => exact (Local.exact 2).map _
    | u8 => exact (Local.atLeast 1).map _
    | u16 => exact (Local.atLeast 2).map _
    | u32 => exact (Local.atLeast 4).map _
    | ifaceType => exact (Local.atLeast 1).map fun v => IeVal.ifaceType (v &&& 0x3f)
    | sourceIface => exact (Local.atLeast 1).map fun v => IeVal.sourceIface (v &&& 0xf)
    | destIface => exact (Local.atLeast 1).map fun v => IeVal.destIface (v &&& 0xf)
    | nodeId => exact Local.nodeId.map _
    | upFeatures => exact (Local.bits 6).map _
    | cpFeatures => exact Local.bind (LocalStep.raw 1) fun a => Local.ret _
    | fSeid => exact Local.fSeid.map _
    | fTeid => exact Local.fTeid.map _
    | applyAction => exact Local.check (fun n => n < 1) (Local.err _) ((Local.bits 2).map _)
    | networkInst => exact Local.name.map _
    | ohc => exact Local.ohc.map _
    | apr => exact (hk rfl).elim
    | ohr => exact Local.ohr.map _
    | ueIp => exact Local.ueIp.map _
  obtain ⟨r, hr, e⟩ := key v
  have e1 := e rest
  have e2 := e []
  simp only [curAt, List.append_nil] at e1 e2
  exact ⟨by rw [e1, e2], e2 ▸ hr⟩

/-! ### Decoded values are in range -/

theorem num_lt {k : Nat} {c c' : Cur} {v : Nat} (h : c.num k = .ok (v, c')) : v < 256 ^ k := by
  obtain ⟨⟨o, c1⟩, h1, h2⟩ := Res.bind_eq_ok h
  simp only [Cur.raw] at h1
  split at h1
  · simp at h1
  · obtain ⟨o', h3, h4⟩ := Res.bind_eq_ok h1
    simp only [rdN] at h3
    split at h3
    · simp only [Res.ok.injEq, Prod.mk.injEq] at h2 h3 h4
      obtain ⟨rfl, _⟩ := h4
      obtain ⟨rfl, _⟩ := h2
      subst h3
      refine Nat.lt_of_lt_of_le (loadBE_lt _) (Nat.pow_le_pow_right (by omega) ?_)
      simp; omega
    · simp at h3

theorem raw_length {k : Nat} {c c' : Cur} {o : List UInt8} (h : c.raw k = .ok (o, c')) : o.length = k := by
  simp only [Cur.raw] at h
  split at h
  · simp at h
  · obtain ⟨o', h3, h4⟩ := Res.bind_eq_ok h
    simp only [rdN] at h3
    split at h3
    · simp only [Res.ok.injEq, Prod.mk.injEq] at h3 h4
      obtain ⟨rfl, _⟩ := h4
      subst h3
      simp; omega
    · simp at h3

theorem opt_good {p : Bool} {k n : Nat} {c c' : Cur} {v : Nat} (hn : n = 256 ^ k)
    (h : c.opt p k = .ok (v, c')) : GoodNum p n v := by
  cases p
  · simp only [Cur.opt, Bool.false_eq_true, if_false, Res.ok.injEq, Prod.mk.injEq] at h
    simp [GoodNum, h.1]
  · simp only [GoodNum, if_true, hn]; exact num_lt h

theorem v4_good {p : Bool} {c c' : Cur} {a : Sockaddr} (h : c.v4 p = .ok (a, c')) :
    if p then IsV4 a else a = .unspec := by
  cases p
  · simp only [Cur.v4, Bool.false_eq_true, if_false, Res.ok.injEq, Prod.mk.injEq] at h
    simp [h.1]
  · obtain ⟨⟨n, c1⟩, h1, h2⟩ := Res.bind_eq_ok h
    simp only [Res.ok.injEq, Prod.mk.injEq] at h2
    exact ⟨n, num_lt h1, h2.1.symm⟩

theorem v6_good {p : Bool} {c c' : Cur} {a : Sockaddr} (h : c.v6 p = .ok (a, c')) :
    if p then IsV6 a else a = .unspec := by
  cases p
  · simp only [Cur.v6, Bool.false_eq_true, if_false, Res.ok.injEq, Prod.mk.injEq] at h
    simp [h.1]
  · obtain ⟨⟨n, c1⟩, h1, h2⟩ := Res.bind_eq_ok h
    simp only [Res.ok.injEq, Prod.mk.injEq] at h2
    exact ⟨n, num_lt h1, h2.1.symm⟩

theorem atLeast_lt {k : Nat} {c : Cur} {v : Nat} (h : decAtLeast k c = .ok v) : v < 256 ^ k := by
  obtain ⟨⟨n, c1⟩, h1, h2⟩ := Res.bind_eq_ok h
  simp only [Res.ok.injEq] at h2; subst h2; exact num_lt h1

theorem exact_lt {k : Nat} {c : Cur} {v : Nat} (h : decExact k c = .ok v) : v < 256 ^ k := by
  simp only [decExact] at h
  split at h
  · simp at h
  · exact atLeast_lt h

theorem bits_length {k : Nat} {c : Cur} {v : List UInt8} (h : decBits k c = .ok v) : v.length = k := by
  obtain ⟨o, h1, h2⟩ := Res.bind_eq_ok h
  simp only [rdN] at h1
  split at h1
  · simp only [Res.ok.injEq] at h1 h2
    subst h2 h1
    simp; omega
  · simp at h1

theorem cstr_noNul (s : List UInt8) : (0 : UInt8) ∉ cstr s := by
  induction s with
  | nil => simp [cstr]
  | cons c s ih =>
    simp only [cstr] at ih ⊢
    by_cases hc : c = 0
    · simp [hc]
    · rw [List.takeWhile_cons_of_pos (by simpa using hc)]
      simp only [List.mem_cons, not_or]
      exact ⟨fun e => hc e.symm, ih⟩

/-- Decoding yields a value in range, of the right kind; only names may contain empty labels. -/
theorem dec_inRange (k : IeKind) (p : List UInt8) (n : Nat) (v : IeVal) (h : ieDec k p n = .ok v) :
    v.kind = k ∧ (InRange v ∨ (∃ s, v = .networkInst s) ∨ (∃ s, v = .nodeId (.fqdn s))) := by
  cases k <;> simp only [ieDec] at h
  case applyAction =>
    split at h
    · simp at h
    · obtain ⟨x, h1, h2⟩ := Res.bind_eq_ok h
      simp only [Res.ok.injEq] at h2; subst h2
      exact ⟨rfl, .inl (bits_length h1)⟩
  case cpFeatures =>
    obtain ⟨⟨x, _⟩, h1, h2⟩ := Res.bind_eq_ok h
    simp only [Res.ok.injEq] at h2; subst h2
    exact ⟨rfl, .inl (raw_length h1)⟩
  all_goals
    obtain ⟨x, h1, h2⟩ := Res.bind_eq_ok h
    simp only [Res.ok.injEq] at h2
    subst h2
    refine ⟨rfl, ?_⟩
  case cause => exact .inl (exact_lt h1)
  case offendingIe => exact .inl (exact_lt h1)
  case u8 => exact .inl (atLeast_lt h1)
  case u16 => exact .inl (atLeast_lt h1)
  case u32 => exact .inl (by have := atLeast_lt h1; simpa [InRange] using this)
  case ifaceType =>
    left; simp only [InRange]
    exact Nat.lt_of_le_of_lt Nat.and_le_right (by omega)
  case sourceIface =>
    left; simp only [InRange]
    exact Nat.lt_of_le_of_lt Nat.and_le_right (by omega)
  case destIface =>
    left; simp only [InRange]
    exact Nat.lt_of_le_of_lt Nat.and_le_right (by omega)
  case nodeId =>
    simp only [decNodeId] at h1
    obtain ⟨⟨t, c⟩, ht, h1⟩ := Res.bind_eq_ok h1
    simp only [] at h1
    split at h1
    · split at h1
      · simp at h1
      · obtain ⟨⟨a, c⟩, ha, h1⟩ := Res.bind_eq_ok h1
        simp only [Res.ok.injEq] at h1; subst h1
        exact .inl ⟨a, num_lt ha, rfl⟩
    · split at h1
      · split at h1
        · simp at h1
        · obtain ⟨⟨a, c⟩, ha, h1⟩ := Res.bind_eq_ok h1
          simp only [Res.ok.injEq] at h1; subst h1
          exact .inl ⟨a, num_lt ha, rfl⟩
      · split at h1
        · obtain ⟨s, hs, h1⟩ := Res.bind_eq_ok h1
          simp only [Res.ok.injEq] at h1; subst h1
          exact .inr (.inr ⟨s, rfl⟩)
        · simp at h1
  case upFeatures => exact .inl (bits_length h1)
  case fSeid =>
    simp only [decFSeid] at h1
    split at h1
    · simp at h1
    · obtain ⟨⟨f, c1⟩, hf, h1⟩ := Res.bind_eq_ok h1
      obtain ⟨⟨s, c2⟩, hs, h1⟩ := Res.bind_eq_ok h1
      obtain ⟨⟨a4, c3⟩, h4, h1⟩ := Res.bind_eq_ok h1
      obtain ⟨⟨a6, c4⟩, h6, h1⟩ := Res.bind_eq_ok h1
      simp only [Res.ok.injEq] at h1; subst h1
      exact .inl ⟨num_lt hs, v4_good h4, v6_good h6⟩
  case fTeid =>
    simp only [decFTeid] at h1
    obtain ⟨⟨f, c1⟩, hf, h1⟩ := Res.bind_eq_ok h1
    simp only [] at h1
    split at h1
    · obtain ⟨⟨s, c2⟩, hs, h1⟩ := Res.bind_eq_ok h1
      obtain ⟨⟨a4, c3⟩, h4, h1⟩ := Res.bind_eq_ok h1
      obtain ⟨⟨a6, c4⟩, h6, h1⟩ := Res.bind_eq_ok h1
      simp only [Res.ok.injEq] at h1; subst h1
      exact .inl ⟨num_lt hs, v4_good h4, v6_good h6⟩
    · obtain ⟨⟨i, c2⟩, hi, h1⟩ := Res.bind_eq_ok h1
      simp only [Res.ok.injEq] at h1; subst h1
      exact .inl (opt_good rfl hi)
  case networkInst => exact .inr (.inl ⟨x, rfl⟩)
  case ohc =>
    simp only [decOhc] at h1
    obtain ⟨⟨d, c1⟩, hd, h1⟩ := Res.bind_eq_ok h1
    obtain ⟨pa, hpa, h1⟩ := Res.bind_eq_ok h1
    rw [ohcParts_eq (raw_length hd)] at hpa
    simp only [Res.ok.injEq] at hpa
    obtain ⟨⟨t, c2⟩, ht, h1⟩ := Res.bind_eq_ok h1
    obtain ⟨⟨a4, c3⟩, h4, h1⟩ := Res.bind_eq_ok h1
    obtain ⟨⟨a6, c4⟩, h6, h1⟩ := Res.bind_eq_ok h1
    obtain ⟨⟨po, c5⟩, hpo, h1⟩ := Res.bind_eq_ok h1
    obtain ⟨⟨ct, c6⟩, hct, h1⟩ := Res.bind_eq_ok h1
    obtain ⟨⟨st, c7⟩, hst, h1⟩ := Res.bind_eq_ok h1
    simp only [Res.ok.injEq] at h1; subst h1
    exact .inl ⟨raw_length hd, by rw [hpa]; rfl, opt_good rfl ht, ⟨v4_good h4, v6_good h6⟩, opt_good rfl hpo,
      opt_good rfl hct, opt_good rfl hst⟩
  case apr =>
    left
    simp only [decApr, readCStr] at h1
    obtain ⟨s, hs, h1⟩ := Res.bind_eq_ok h1
    simp only [Res.ok.injEq] at h1; subst h1
    split at hs
    · simp only [Res.ok.injEq] at hs; subst hs
      refine ⟨by simp; omega, fun hm => ?_⟩
      exact cstr_noNul _ (List.mem_of_mem_take hm)
    · simp at hs
  case ohr =>
    left
    simp only [decOhr] at h1
    obtain ⟨⟨d, c1⟩, hd, h1⟩ := Res.bind_eq_ok h1
    simp only [] at h1
    split at h1
    · obtain ⟨⟨e, c2⟩, he, h1⟩ := Res.bind_eq_ok h1
      simp only [Res.ok.injEq] at h1; subst h1
      exact ⟨num_lt hd, by simpa [GoodNum] using num_lt he⟩
    · simp only [Res.ok.injEq] at h1; subst h1
      exact ⟨num_lt hd, by simp [GoodNum]⟩
  case ueIp =>
    left
    simp only [decUeIp] at h1
    obtain ⟨⟨f, c1⟩, hf, h1⟩ := Res.bind_eq_ok h1
    obtain ⟨⟨a4, c3⟩, h4, h1⟩ := Res.bind_eq_ok h1
    obtain ⟨⟨a6, c4⟩, h6, h1⟩ := Res.bind_eq_ok h1
    obtain ⟨⟨de, c5⟩, hde, h1⟩ := Res.bind_eq_ok h1
    obtain ⟨⟨pl, c6⟩, hpl, h1⟩ := Res.bind_eq_ok h1
    simp only [Res.ok.injEq] at h1; subst h1
    exact ⟨⟨v4_good h4, v6_good h6⟩, opt_good rfl hde, opt_good rfl hpl⟩

end Verif
