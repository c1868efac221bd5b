/-
Lemmas about error reporting: encoding.
-/
import Verif.ReportLemmas
import Verif.SpecReport
import Verif.IesLemmas

namespace Verif
open Spec Props

variable {A : Type}

/-- Nothing is reported while encoding a value succeeds. -/
def EncSilent (c : RCoding A) : Prop := ∀ e, c.c.enc = some e → ∀ v b b', e v b = .ok b' → c.encReports v b = []

theorem encodeValsR_reports (cfg : Cfg) {c : RCoding A} (hs : EncSilent c) : ∀ (vs : List (Val A)) (i : Nat) (p : Put) (b : Msgb),
    (∀ x, (encodeValsR cfg c vs i p b).1 = .ok x → (encodeValsR cfg c vs i p b).2 = []) ∧
    (∀ rc x, (encodeValsR cfg c vs i p b).1 = .err rc x →
      (∃ max m, c.c.kind = .multi max m ∧ max < i + vs.length ∧ rc = .ENOTSUP ∧
        (encodeValsR cfg c vs i p b).2 = [{ ti := c.c.ti, rc := .ENOTSUP, text := .surplus max }]) ∨
      (∃ v ∈ vs, ∃ e b1 b2, c.c.enc = some e ∧ e v b1 = .err rc b2 ∧
        (encodeValsR cfg c vs i p b).2 = c.encReports v b1 ++
          [{ ti := c.c.ti, rc := rc, text := if c.nested then .inside else .notEncoded }])) := by
  intro vs
  induction vs with
  | nil => intro i p b; exact ⟨fun _ _ => rfl, nofun⟩
  | cons v vs ih =>
    intro i p b
    simp only [encodeValsR]
    generalize ignoreErr (putTli cfg p b c.c.ti 0) p b = pb
    obtain ⟨p1, b1⟩ := pb
    simp only
    by_cases hx : c.c.kind.exceeds i = true
    · rw [if_pos hx]
      refine ⟨nofun, fun rc x h => .inl ?_⟩
      cases h
      cases hk : c.c.kind with
      | multi max m =>
        rw [hk] at hx
        simp only [Kind.exceeds, decide_eq_true_eq] at hx
        exact ⟨max, m, rfl, by simp only [List.length_cons]; omega, rfl, rfl⟩
      | _ => rw [hk] at hx; cases hx
    · rw [if_neg hx]
      cases he : c.c.enc with
      | none => exact ⟨nofun, nofun⟩
      | some e =>
        simp only
        cases hv : e v b1 with
        | ok b2 =>
          simp only
          generalize ignoreErr (putUpdateTl cfg p1 b2) p1 b2 = pb2
          obtain ⟨p3, b3⟩ := pb2
          simp only
          obtain ⟨h1, h2⟩ := ih (i + 1) p3 b3
          have h0 := hs e he v b1 b2 hv
          rw [h0, List.nil_append]
          refine ⟨h1, fun rc x h => ?_⟩
          rcases h2 rc x h with ⟨max, m, a, b, d⟩ | ⟨w, hw, e', b1', b2', a1, a2, a3⟩
          · exact .inl ⟨max, m, a, by simp only [List.length_cons]; omega, d⟩
          · exact .inr ⟨w, by simp [hw], e', b1', b2', by rw [← he]; exact a1, a2, a3⟩
        | err rc b2 =>
          refine ⟨nofun, fun rc' x h => .inr ?_⟩
          cases h
          exact ⟨v, by simp, e, b1, b2, rfl, hv, rfl⟩
        | _ => exact ⟨nofun, nofun⟩

/-- The reports of a table. -/
theorem encodeTableR_reports (cfg : Cfg) : ∀ (cs : List (RCoding A)), (∀ c ∈ cs, EncSilent c) → ∀ (ss : Struct A) (p : Put) (b : Msgb),
    (∀ x, (encodeTableR cfg cs ss p b).1 = .ok x → (encodeTableR cfg cs ss p b).2 = []) := by
  intro cs
  induction cs with
  | nil => intro _ ss p b x _; cases ss <;> rfl
  | cons c cs ih =>
    intro hs ss p b
    cases ss with
    | nil => nofun
    | cons s ss =>
      simp only [encodeTableR]
      cases membVals c.c.kind s with
      | none => nofun
      | some vs =>
        simp only
        have h0 := (encodeValsR_reports cfg (hs c (by simp)) vs 0 p b).1
        rcases hv : encodeValsR cfg c vs 0 p b with ⟨r, l⟩
        rw [hv] at h0
        cases r with
        | ok x =>
          obtain ⟨p1, b1⟩ := x
          have hl : l = [] := h0 _ rfl
          subst hl
          simp only [List.nil_append]
          exact ih (fun c hc => hs c (by simp [hc])) ss p1 b1
        | _ => nofun

mutual
theorem Ty.encSilent (ty : Ty) (tag : Nat) (kind : Kind) : EncSilent (ty.rcoding tag kind) := by
  match ty with
  | .ie k => intro e he v b b' h; rfl
  | .group f =>
    intro e he v b b' h
    simp only [Ty.rcoding, nestedRCoding, nestedCoding, Option.some.injEq] at he
    subst he
    cases v with
    | leaf a => rfl
    | node s =>
      simp only [gtlvsEncode, dropPut] at h
      show (encodeTableR t16l16v f.rcodings s {} b).2 = []
      cases hx : encodeTable t16l16v (unreported f.rcodings) s {} b with
      | ok pb => exact encodeTableR_reports t16l16v f.rcodings (Fields.encSilent f) s {} b pb (by rw [encodeTableR_fst]; exact hx)
      | _ => rw [hx] at h; cases h
theorem Fields.encSilent (f : Fields) : ∀ c ∈ f.rcodings, EncSilent c := by
  match f with
  | .nil => simp [Fields.rcodings]
  | .cons t k ty f =>
    intro c hc
    simp only [Fields.rcodings, List.mem_cons] at hc
    rcases hc with rfl | hc
    · exact Ty.encSilent ty t k
    · exact Fields.encSilent f c hc
end

theorem rcoding_ti' (ty : Ty) (tag : Nat) (kind : Kind) :
    (ty.rcoding tag kind).c.ti = { tag := tag } ∧ (ty.rcoding tag kind).c.kind = kind := by
  rw [Ty.rcoding_c]; exact Ty.coding_ti tag kind ty

theorem membVals_mem {k : Kind} {s vs : List (Val A)} (h : membVals k s = some vs) :
    (∀ v ∈ vs, v ∈ s) ∧ ∀ max m, k = .multi max m → vs = s := by
  cases k with
  | multi max m => simp only [membVals, Option.some.injEq] at h; subst h; exact ⟨fun v hv => hv, fun _ _ _ => rfl⟩
  | mand =>
    cases s with
    | nil => cases h
    | cons v s => simp only [membVals, Option.some.injEq] at h; subst h; exact ⟨by simp, nofun⟩
  | opt =>
    cases s with
    | nil => simp only [membVals, Option.some.injEq] at h; subst h; exact ⟨by simp, nofun⟩
    | cons v s => simp only [membVals, Option.some.injEq] at h; subst h; exact ⟨by simp, nofun⟩

/-! ### The values that are refused -/

/-- All errors of this encoder are EINVAL, under a condition. -/
def Refuses (P : Prop) (f : Msgb → Out Msgb) : Prop := ∀ b e b', f b = .err e b' → e = .EINVAL ∧ P

theorem Refuses.put {P : Prop} (o : List UInt8) : Refuses P fun b => b.put o := by
  intro b e b' h
  simp only [Msgb.put] at h
  split at h <;> cases h

theorem Refuses.ok {P : Prop} : Refuses P fun b => .ok b := nofun

theorem Refuses.bind {P : Prop} {f g : Msgb → Out Msgb} (hf : Refuses P f) (hg : Refuses P g) : Refuses P fun b => (f b).bind g := by
  intro b e b' h
  simp only at h
  cases hx : f b with
  | ok b1 => rw [hx] at h; exact hg b1 e b' h
  | err e1 b1 => rw [hx] at h; cases h; exact hf b _ _ hx
  | _ => rw [hx] at h; cases h

theorem Refuses.ite {P : Prop} {f g : Msgb → Out Msgb} (p : Prop) [Decidable p] (hf : p → Refuses P f) (hg : ¬ p → Refuses P g) :
    Refuses P fun b => if p then f b else g b := by
  by_cases hp : p
  · simp only [if_pos hp]; exact hf hp
  · simp only [if_neg hp]; exact hg hp

theorem Refuses.num {P : Prop} (k v : Nat) : Refuses P fun b => b.num k v := Refuses.put _
theorem Refuses.opt {P : Prop} (p : Bool) (k v : Nat) : Refuses P fun b => b.opt p k v :=
  Refuses.ite _ (fun _ => Refuses.num k v) fun _ => Refuses.ok
theorem Refuses.err {P : Prop} (h : P) : Refuses P fun b => .err .EINVAL b := by
  intro b e b' hr
  cases hr
  exact ⟨rfl, h⟩
theorem Refuses.addr {P : Prop} (p : Bool) (f : Sockaddr → Bool) (l : Nat) (a : Sockaddr) (h : p = true → f a = false → P) :
    Refuses P fun b => b.addr p f l a :=
  Refuses.ite _ (fun hp => Refuses.ite _ (fun _ => Refuses.put _) fun hf => Refuses.err (h hp (by simpa using hf))) fun _ => Refuses.ok
theorem Refuses.agree {P : Prop} (x y : Bool) (o : List UInt8) (h : x ≠ y → P) : Refuses P fun b => b.agree x y o :=
  Refuses.ite _ (fun hp => Refuses.err (h hp)) fun _ => Refuses.ite _ (fun _ => Refuses.put _) fun _ => Refuses.ok
theorem Refuses.name (s : List UInt8) : Refuses True (encName s) := by
  intro b e b' h
  unfold encName at h
  split at h
  · cases h; exact ⟨rfl, trivial⟩
  · exact Refuses.put _ b e b' h

theorem ieEnc_refuses (v : IeVal) : Refuses (Refusable v) (ieEnc v) := by
  cases v with
  | nodeId n =>
    cases n with
    | v4 a => exact Refuses.bind (Refuses.num _ _) (Refuses.put _)
    | v6 a => exact Refuses.bind (Refuses.num _ _) (Refuses.put _)
    | fqdn s => exact Refuses.bind (Refuses.num _ _) (Refuses.name s)
    | other t => exact Refuses.bind (Refuses.num _ _) (Refuses.err trivial)
  | networkInst s => exact Refuses.name s
  | fSeid v =>
    exact Refuses.bind (Refuses.num _ _) (Refuses.bind (Refuses.num _ _)
      (Refuses.bind (Refuses.addr _ _ _ _ fun a b => .inl ⟨a, b⟩) (Refuses.addr _ _ _ _ fun a b => .inr ⟨a, b⟩)))
  | fTeid v =>
    cases v with
    | fixed t ip =>
      exact Refuses.bind (Refuses.num _ _) (Refuses.bind (Refuses.num _ _)
        (Refuses.bind (Refuses.addr _ _ _ _ fun a b => .inl ⟨a, b⟩) (Refuses.addr _ _ _ _ fun a b => .inr ⟨a, b⟩)))
    | choose a b p i => exact Refuses.bind (Refuses.num _ _) (Refuses.opt _ _ _)
  | ueIp v =>
    exact Refuses.bind (Refuses.num _ _) (Refuses.bind (Refuses.addr _ _ _ _ fun a b => .inl ⟨a, b⟩)
      (Refuses.bind (Refuses.addr _ _ _ _ fun a b => .inr ⟨a, b⟩) (Refuses.bind (Refuses.opt _ _ _) (Refuses.opt _ _ _))))
  | ohc v =>
    by_cases hl : v.desc.length = 2
    · have e : ieEnc (.ohc v) = fun b => (b.put v.desc).bind fun b =>
          (b.agree (announces v.desc).teid v.teidPresent (storeBE 4 v.teid)).bind fun b =>
          (b.agree (announces v.desc).v4 v.ip.v4Present (v.ip.v4.toOctets 4)).bind fun b =>
          (b.agree (announces v.desc).v6 v.ip.v6Present (v.ip.v6.toOctets 16)).bind fun b =>
          (b.agree (announces v.desc).port v.portPresent (storeBE 2 v.port)).bind fun b =>
          (b.agree (announces v.desc).cTag v.cTagPresent (storeBE 3 v.cTag)).bind fun b =>
          b.agree (announces v.desc).sTag v.sTagPresent (storeBE 3 v.sTag) := by
        funext b
        simp only [ieEnc, encOhc, ohcParts_eq hl]
      rw [e]
      refine Refuses.bind (Refuses.put _) (Refuses.bind (Refuses.agree _ _ _ ?_) (Refuses.bind (Refuses.agree _ _ _ ?_)
        (Refuses.bind (Refuses.agree _ _ _ ?_) (Refuses.bind (Refuses.agree _ _ _ ?_) (Refuses.bind (Refuses.agree _ _ _ ?_)
        (Refuses.agree _ _ _ ?_)))))) <;>
      · intro h
        refine .inr fun h' => h ?_
        rw [h']
        rfl
    · have h0 : Refusable (.ohc v) := .inl hl
      show Refuses _ (encOhc v)
      unfold encOhc
      refine Refuses.bind (Refuses.put _) ?_
      cases ohcParts v.desc with
      | ok parts =>
        exact Refuses.bind (Refuses.agree _ _ _ fun _ => h0) (Refuses.bind (Refuses.agree _ _ _ fun _ => h0)
          (Refuses.bind (Refuses.agree _ _ _ fun _ => h0) (Refuses.bind (Refuses.agree _ _ _ fun _ => h0)
          (Refuses.bind (Refuses.agree _ _ _ fun _ => h0) (Refuses.agree _ _ _ fun _ => h0)))))
      | _ => exact nofun
  | apr s => exact Refuses.ite _ (fun _ => Refuses.put _) fun _ => Refuses.ok
  | ohr v => exact Refuses.bind (Refuses.num _ _) (Refuses.opt _ _ _)
  | _ => first | exact Refuses.num _ _ | exact Refuses.put _

mutual
theorem Ty.unencoded (ty : Ty) (tag : Nat) (kind : Kind) (f : Fields) (s : Struct IeVal) (vs : List (Val IeVal)) {v : Val IeVal}
    (hv : v ∈ vs) {e b1 b2 rc} (he : (ty.rcoding tag kind).c.enc = some e) (h : e v b1 = .err rc b2) :
    Unencoded (.cons tag kind ty f) (vs :: s) rc ((ty.rcoding tag kind).encReports v b1 ++
      [{ ti := { tag := tag }, rc := rc, text := if (ty.rcoding tag kind).nested then .inside else .notEncoded }]) := by
  match ty with
  | .ie k =>
    simp only [Ty.rcoding, leafRCoding, ieCoding, leafCoding, Option.some.injEq] at he
    subst he
    cases v with
    | node s' => cases h
    | leaf a =>
      simp only at h
      split at h
      · next hk =>
        obtain ⟨rfl, hr⟩ := ieEnc_refuses a _ _ _ h
        exact .value hv hk hr
      · cases h
  | .group g =>
    simp only [Ty.rcoding, nestedRCoding, nestedCoding, Option.some.injEq] at he
    subst he
    cases v with
    | leaf a => cases h
    | node s' =>
      simp only [gtlvsEncode, dropPut] at h
      refine .inside hv (Fields.unencoded g s' {} b1 rc ?_)
      rw [encodeTableR_fst]
      cases hx : encodeTable t16l16v (unreported g.rcodings) s' {} b1 with
      | err e' pb =>
        rw [hx] at h
        cases h
        exact ⟨pb, rfl⟩
      | _ => rw [hx] at h; cases h
theorem Fields.unencoded (f : Fields) (s : Struct IeVal) (p : Put) (b : Msgb) (rc : Errno)
    (h : ∃ x, (encodeTableR t16l16v f.rcodings s p b).1 = .err rc x) :
    Unencoded f s rc (encodeTableR t16l16v f.rcodings s p b).2 := by
  match f, s with
  | .nil, _ => obtain ⟨x, h⟩ := h; cases h
  | .cons t k ty f, [] => obtain ⟨x, h⟩ := h; cases h
  | .cons t k ty f, vs :: s =>
    obtain ⟨x, h⟩ := h
    simp only [Fields.rcodings, encodeTableR] at h ⊢
    rw [(rcoding_ti' ty t k).2] at h ⊢
    cases hm : membVals k vs with
    | none => rw [hm] at h; cases h
    | some ws =>
      rw [hm] at h
      simp only at h ⊢
      obtain ⟨hmem, hmul⟩ := membVals_mem hm
      obtain ⟨h1, h2⟩ := encodeValsR_reports t16l16v (Ty.encSilent ty t k) ws 0 p b
      rcases hr : encodeValsR t16l16v (ty.rcoding t k) ws 0 p b with ⟨r, l⟩
      rw [hr] at h h1 h2
      cases r with
      | ok pb =>
        obtain ⟨p1, b1⟩ := pb
        have hl : l = [] := h1 _ rfl
        subst hl
        simp only [List.nil_append] at h ⊢
        exact .later (Fields.unencoded f s p1 b1 rc ⟨x, h⟩)
      | err e pb =>
        simp only at h ⊢
        cases h
        rcases h2 _ _ rfl with ⟨max, m, a1, a2, rfl, a3⟩ | ⟨v, hv, e', b1, b2, a1, a2, a3⟩
        · rw [(rcoding_ti' ty t k).2] at a1
          subst a1
          rw [(rcoding_ti' ty t _).1] at a3
          simp only at a3
          rw [a3]
          exact .surplus (by rw [← hmul max m rfl]; omega)
        · rw [(rcoding_ti' ty t k).1] at a3
          simp only at a3
          rw [a3]
          exact Ty.unencoded ty t k f s vs (hmem v hv) a1 a2
      | _ => cases h
end

end Verif
