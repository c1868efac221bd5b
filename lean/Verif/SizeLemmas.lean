/-
How long the encoding of a message can be; and what encoding does when it does not fit.
-/
import Verif.PropsMsg

namespace Verif
open Spec Props

/-! ### The longest encoding -/

/-- The longest encoding of an IE of this kind. -/
def kindMost : IeKind → Nat
  | .cause => 1 | .offendingIe => 2 | .u8 => 1 | .u16 => 2 | .u32 => 4 | .ifaceType => 1 | .sourceIface => 1
  | .destIface => 1 | .nodeId => 255 | .upFeatures => 6 | .cpFeatures => 1 | .fSeid => 29 | .fTeid => 25
  | .applyAction => 2 | .networkInst => 254 | .ohc => 34 | .apr => 255 | .ohr => 2 | .ueIp => 23

theorem v4part_le {p : Bool} {a : Sockaddr} (h : if p then IsV4 a else a = .unspec) :
    (part p (addrOctets a)).length ≤ 4 := by
  cases p
  · simp [part]
  · simp only [if_true] at h; simp [part, (IsV4.octets h).2]

theorem v6part_le {p : Bool} {a : Sockaddr} (h : if p then IsV6 a else a = .unspec) :
    (part p (addrOctets a)).length ≤ 16 := by
  cases p
  · simp [part]
  · simp only [if_true] at h; simp [part, (IsV6.octets h).2]

theorem numpart_le (p : Bool) (k v : Nat) : (part p (be k v)).length ≤ k := by
  rw [part_length_num]; split <;> omega

theorem wire_le (v : IeVal) (h : InRange v) : (wire v).length ≤ kindMost v.kind := by
  cases v with
  | nodeId n =>
    cases n with
    | v4 a => have := IsV4.octets (a := a) h; simp [wire, IeVal.kind, kindMost, this.2]
    | v6 a => have := IsV6.octets (a := a) h; simp [wire, IeVal.kind, kindMost, this.2]
    | fqdn s =>
      have hs : GoodName s := h
      have := hs.1
      simp only [wire, IeVal.kind, kindMost, List.length_append, labelOctets_length, List.length_cons, List.length_nil]
      omega
    | other t => exact h.elim
  | networkInst s =>
    have hs : GoodName s := h
    have := hs.1
    simp only [wire, IeVal.kind, kindMost, labelOctets_length]; omega
  | upFeatures b => exact Nat.le_of_eq h
  | cpFeatures b => exact Nat.le_of_eq h
  | applyAction b => exact Nat.le_of_eq h
  | apr s => exact h.1
  | fSeid v =>
    obtain ⟨_, h4, h6⟩ := h
    have := v4part_le h4
    have := v6part_le h6
    simp only [wire, IeVal.kind, kindMost, List.length_append, be_length, List.length_cons, List.length_nil]; omega
  | fTeid v =>
    cases v with
    | fixed t ip =>
      obtain ⟨_, h4, h6⟩ := h
      have := v4part_le h4
      have := v6part_le h6
      simp only [wire, IeVal.kind, kindMost, List.length_append, be_length, List.length_cons, List.length_nil]; omega
    | choose a b c d =>
      have := numpart_le c 1 d
      simp only [wire, IeVal.kind, kindMost, List.length_append, List.length_cons, List.length_nil]; omega
  | ohc v =>
    obtain ⟨h1, _, _, ⟨h4, h6⟩, _⟩ := h
    have := v4part_le h4
    have := v6part_le h6
    have := numpart_le v.teidPresent 4 v.teid
    have := numpart_le v.portPresent 2 v.port
    have := numpart_le v.cTagPresent 3 v.cTag
    have := numpart_le v.sTagPresent 3 v.sTag
    simp only [wire, IeVal.kind, kindMost, List.length_append, h1]; omega
  | ohr v =>
    have := numpart_le v.extPresent 1 v.ext
    simp only [wire, IeVal.kind, kindMost, List.length_append, be_length]; omega
  | ueIp v =>
    obtain ⟨⟨h4, h6⟩, _⟩ := h
    have := v4part_le h4
    have := v6part_le h6
    have := numpart_le v.delegPresent 1 v.deleg
    have := numpart_le v.plenPresent 1 v.plen
    simp only [wire, IeVal.kind, kindMost, List.length_append, List.length_cons, List.length_nil]; omega
  | _ => simp [wire, IeVal.kind, kindMost]

mutual
/-- The longest value. -/
def Ty.most : Ty → Nat
  | .ie k => kindMost k
  | .group f => f.most
/-- The longest struct. -/
def Fields.most : Fields → Nat
  | .nil => 0
  | .cons _ kind ty f => Spec.most kind * (4 + ty.most) + f.most
end

theorem flatMap_le {α} (g : α → List UInt8) (m : Nat) (l : List α) (h : ∀ x ∈ l, (g x).length ≤ m) :
    (l.flatMap g).length ≤ l.length * m := by
  induction l with
  | nil => simp
  | cons x l ih =>
    have h1 := h x (by simp)
    have h2 := ih fun y hy => h y (by simp [hy])
    simp only [List.flatMap_cons, List.length_append, List.length_cons, Nat.add_mul, Nat.one_mul]
    omega

mutual
theorem Ty.le_most (ty : Ty) (v : Val IeVal) (h : GoodVal ty v) : (valueOctets ty v).length ≤ ty.most := by
  match ty, v with
  | .ie k, .leaf v =>
    obtain ⟨rfl, hr⟩ := h
    exact wire_le v hr
  | .group f, .node s => exact Fields.le_most f s h
  | .ie _, .node _ => exact (h : False).elim
  | .group _, .leaf _ => exact (h : False).elim
theorem Fields.le_most (f : Fields) (s : Struct IeVal) (h : GoodStruct f s) : (structOctets f s).length ≤ f.most := by
  match f, s with
  | .nil, _ => simp [structOctets]
  | .cons _ _ _ _, [] => simp [structOctets]
  | .cons t kind ty f, vs :: s =>
    obtain ⟨⟨_, h1⟩, h2, h3⟩ := h
    have a := Fields.le_most f s h3
    have b := flatMap_le (fun v => ie16 (t, valueOctets ty v)) (4 + ty.most) vs (by
      intro v hv
      have := Ty.le_most ty v (h2 v hv)
      rw [ie16_length]; simp only; omega)
    have c : vs.length * (4 + ty.most) ≤ Spec.most kind * (4 + ty.most) := Nat.mul_le_mul_right _ h1
    simp only [structOctets, List.length_append, Fields.most]
    omega
end

/-! ### More room does not change a success -/

/-- With more room, what succeeds succeeds, and the octets are the same. -/
def Upward (f : Msgb → Out Msgb) : Prop :=
  ∀ b b' k, f b = .ok b' → f ⟨b.cap + k, b.data⟩ = .ok ⟨b'.cap + k, b'.data⟩

theorem Upward.put (o : List UInt8) : Upward fun b => b.put o := by
  intro b b' k h
  change b.put o = _ at h
  show Msgb.put _ o = _
  unfold Msgb.put at h ⊢
  split at h
  · simp only [Out.ok.injEq] at h
    subst h
    rw [if_pos (by simp only; omega)]
  · simp at h

theorem Upward.ok : Upward fun b => .ok b := by
  intro b b' k h
  simp only [Out.ok.injEq] at h
  subst h
  rfl

theorem Upward.err (e : Errno) : Upward fun b => .err e b := by intro b b' k h; simp at h
theorem Upward.ub : Upward fun _ => .ub := by intro b b' k h; simp at h

theorem Upward.bind {f g : Msgb → Out Msgb} (hf : Upward f) (hg : Upward g) : Upward fun b => (f b).bind g := by
  intro b b' k h
  obtain ⟨b1, h1, h2⟩ := Out.bind_eq_ok h
  show (f _).bind g = _
  rw [hf b b1 k h1]
  exact hg b1 b' k h2

theorem Upward.ite {f g : Msgb → Out Msgb} (p : Prop) [Decidable p] (hf : Upward f) (hg : Upward g) :
    Upward fun b => if p then f b else g b := by
  split
  · exact hf
  · exact hg

theorem Upward.num (k v : Nat) : Upward fun b => b.num k v := Upward.put _
theorem Upward.opt (p : Bool) (k v : Nat) : Upward fun b => b.opt p k v := Upward.ite _ (Upward.num k v) Upward.ok
theorem Upward.addr (p : Bool) (f : Sockaddr → Bool) (l : Nat) (a : Sockaddr) : Upward fun b => b.addr p f l a :=
  Upward.ite _ (Upward.ite _ (Upward.put _) (Upward.err _)) Upward.ok
theorem Upward.agree (x y : Bool) (o : List UInt8) : Upward fun b => b.agree x y o :=
  Upward.ite _ (Upward.err _) (Upward.ite _ (Upward.put _) Upward.ok)

theorem Upward.name (s : List UInt8) : Upward fun b => encName s b := by
  intro b b' k h
  change encName s b = _ at h
  show encName s _ = _
  unfold encName at h ⊢
  cases ho : apnFromStr b.tailroom s with
  | none => rw [ho] at h; simp at h
  | some o =>
    rw [ho] at h
    have : apnFromStr (Msgb.tailroom ⟨b.cap + k, b.data⟩) s = some o := by
      have ht : b.tailroom ≤ Msgb.tailroom ⟨b.cap + k, b.data⟩ := by simp only [Msgb.tailroom]; omega
      unfold apnFromStr at ho ⊢
      split at ho
      · simp at ho
      · rw [if_neg (by omega)]; exact ho
    rw [this]
    exact Upward.put o b b' k h

theorem ieEnc_upward (v : IeVal) : Upward (ieEnc v) := by
  unfold ieEnc
  cases v with
  | cause v => exact Upward.num _ _
  | offendingIe v => exact Upward.num _ _
  | u8 v => exact Upward.num _ _
  | u16 v => exact Upward.num _ _
  | u32 v => exact Upward.num _ _
  | ifaceType v => exact Upward.num _ _
  | sourceIface v => exact Upward.num _ _
  | destIface v => exact Upward.num _ _
  | nodeId v =>
    cases v with
    | v4 a => exact Upward.bind (Upward.num _ _) (Upward.put _)
    | v6 a => exact Upward.bind (Upward.num _ _) (Upward.put _)
    | fqdn s => exact Upward.bind (Upward.num _ _) (Upward.name _)
    | other t => exact Upward.bind (Upward.num _ _) (Upward.err _)
  | upFeatures bits => exact Upward.put _
  | cpFeatures bits => exact Upward.put _
  | fSeid v =>
    exact Upward.bind (Upward.num _ _) (Upward.bind (Upward.num _ _) (Upward.bind (Upward.addr _ _ _ _) (Upward.addr _ _ _ _)))
  | fTeid v =>
    cases v with
    | fixed t ip =>
      exact Upward.bind (Upward.num _ _) (Upward.bind (Upward.num _ _) (Upward.bind (Upward.addr _ _ _ _) (Upward.addr _ _ _ _)))
    | choose a b c d => exact Upward.bind (Upward.num _ _) (Upward.opt _ _ _)
  | applyAction bits => exact Upward.put _
  | networkInst s => exact Upward.name _
  | ohc v =>
    simp only [encOhc]
    refine Upward.bind (Upward.put _) ?_
    cases ohcParts v.desc with
    | ok parts =>
      exact Upward.bind (Upward.agree _ _ _) (Upward.bind (Upward.agree _ _ _) (Upward.bind (Upward.agree _ _ _)
        (Upward.bind (Upward.agree _ _ _) (Upward.bind (Upward.agree _ _ _) (Upward.agree _ _ _)))))
    | _ => exact Upward.ub
  | apr s => exact Upward.ite _ (Upward.put _) Upward.ok
  | ohr v => exact Upward.bind (Upward.num _ _) (Upward.opt _ _ _)
  | ueIp v =>
    exact Upward.bind (Upward.num _ _) (Upward.bind (Upward.addr _ _ _ _) (Upward.bind (Upward.addr _ _ _ _)
      (Upward.bind (Upward.opt _ _ _) (Upward.opt _ _ _))))

/-- An IE that is encoded is encoded right, however little room there is. -/
theorem ieEnc_exact (v : IeVal) (h : InRange v) (b b' : Msgb) (he : ieEnc v b = .ok b') :
    b' = { b with data := b.data ++ wire v } := by
  obtain ⟨g1, _, _⟩ := (ieEnc_grows v b).1 b' he
  have h1 := ieEnc_upward v b b' (b.data.length + (wire v).length) he
  rw [C35_encodes v h _ (by simp only; omega)] at h1
  simp only [Out.ok.injEq, Msgb.mk.injEq] at h1
  cases b'
  simp only at g1 h1
  rw [g1, ← h1.2]

/-! ### Tables of such encoders -/

section Loose
variable {A : Type} {cfg : Cfg} {hdr : TagInst → Nat → List UInt8} {dom : TagInst → Nat → Prop}

/-- If the value is encoded, and `t` octets of room are left behind it, it is encoded as `bs`. -/
def Loose (t : Nat) (c : Coding A) (v : Val A) (bs : List UInt8) : Prop :=
  ∃ enc, c.enc = some enc ∧ ∀ b b', enc v b = .ok b' →
    b'.cap = b.cap ∧ b.data.length ≤ b'.data.length ∧ (b'.data.length + t ≤ b'.cap → b'.data = b.data ++ bs)

theorem encodeVals_loose (h : cfg.Lawful hdr dom) (c : Coding A) (vs : List (Val A)) :
    ∀ (bss : List (List UInt8)) (i : Nat) (p : Put) (b : Msgb) (p' : Put) (b' : Msgb),
    All2 (Loose cfg.tlMin c) vs bss → (∀ bs ∈ bss, dom c.ti bs.length) → dom c.ti 0 →
    PutOk cfg p b → encodeVals cfg c vs i p b = .ok (p', b') →
    PutOk cfg p' b' ∧ b'.cap = b.cap ∧ b.data.length ≤ b'.data.length ∧
    (b'.data.length + cfg.tlMin ≤ b'.cap →
      b'.data = b.data ++ tlvBytes hdr (bss.map fun bs => (c.ti, bs))) := by
  induction vs with
  | nil =>
    intro bss i p b p' b' hf _ _ hp he
    cases hf
    simp only [encodeVals, Out.ok.injEq, Prod.mk.injEq] at he
    obtain ⟨rfl, rfl⟩ := he
    exact ⟨hp, rfl, Nat.le_refl _, by simp [tlvBytes]⟩
  | cons v vs ih =>
    intro bss i p b p' b' hf hd hd0 hp he
    cases hf with
    | @cons _ bs _ bss hv hf =>
    obtain ⟨enc, hen, hx⟩ := hv
    obtain ⟨p1, b1, k1, k2, k3, k4⟩ := ignore_put h p b c.ti hp
    simp only [encodeVals, k1, hen] at he
    split at he
    · simp at he
    cases henc : enc v b1 with
    | ok b2 =>
      obtain ⟨x1, x2, x3⟩ := hx b1 b2 henc
      rw [henc] at he
      simp only at he
      have hp2 : PutOk cfg p1 b2 := by
        intro ti tl v hl
        obtain ⟨a, e⟩ := k2 ti tl v hl
        exact ⟨a, by omega⟩
      obtain ⟨p3, b3, m1, m2, m3, m4⟩ := ignore_update h p1 b2 hp2
      rw [m1] at he
      simp only at he
      obtain ⟨n1, n2, n3, n4⟩ := ih bss (i + 1) p3 b3 p' b' hf (fun x hx => hd x (by simp [hx])) hd0 m2 he
      refine ⟨n1, by rw [n2, m3, x1, k3], by omega, ?_⟩
      intro hroom
      have hb2 := x3 (by rw [x1, k3]; rw [n2, m3, x1, k3] at hroom; omega)
      have hput : putTli cfg p b c.ti 0 =
          .ok ({ last := some (c.ti, b.data.length, b.data.length + cfg.tlMin) },
            { b with data := b.data ++ hdr c.ti 0 }) := by
        unfold putTli
        rw [h.store _ _ _ hd0 (by unfold Msgb.tailroom; omega)]
        simp [h.hdr_len]
      rw [hput] at k1
      simp only [ignoreErr, Prod.mk.injEq] at k1
      obtain ⟨rfl, rfl⟩ := k1
      cases b2
      simp only at x1 hb2
      subst x1
      subst hb2
      have hupd : putUpdateTl cfg { last := some (c.ti, b.data.length, b.data.length + cfg.tlMin) }
          { b with data := b.data ++ hdr c.ti 0 ++ bs } =
          .ok ({ last := some (c.ti, b.data.length, b.data.length + cfg.tlMin) },
            { b with data := b.data ++ (hdr c.ti bs.length ++ bs) }) := by
        unfold putUpdateTl
        simp only
        have hlen : (b.data ++ hdr c.ti 0 ++ bs).length - (b.data.length + cfg.tlMin) = bs.length := by
          simp [h.hdr_len]; omega
        rw [hlen, h.store _ _ _ (hd bs (by simp)) (by omega)]
        simp only
        have hdrop : (b.data ++ hdr c.ti 0 ++ bs).drop (b.data.length + (hdr c.ti bs.length).length) = bs := by
          rw [h.hdr_len, ← h.hdr_len c.ti 0, ← List.length_append, List.drop_left]
        have htake : (b.data ++ hdr c.ti 0 ++ bs).take b.data.length = b.data := by
          rw [List.append_assoc, List.take_left]
        rw [hdrop, htake]
        simp [h.hdr_len]
      rw [hupd] at m1
      simp only [ignoreErr, Prod.mk.injEq] at m1
      obtain ⟨_, rfl⟩ := m1
      rw [n4 hroom]
      simp [tlvBytes]
    | _ => rw [henc] at he; simp at he

theorem encodeTable_loose (h : cfg.Lawful hdr dom) {cs : List (Coding A)} {ss : Struct A} {l}
    (hl : Encodes (Loose cfg.tlMin) Kind.fits cs ss l) (hd : tlvsDom dom l)
    (hd0 : ∀ ti n, dom ti n → dom ti 0) :
    ∀ (p : Put) (b : Msgb) (p' : Put) (b' : Msgb), PutOk cfg p b →
    encodeTable cfg cs ss p b = .ok (p', b') →
    PutOk cfg p' b' ∧ b'.cap = b.cap ∧ b.data.length ≤ b'.data.length ∧
    (b'.data.length + cfg.tlMin ≤ b'.cap → b'.data = b.data ++ tlvBytes hdr l) := by
  induction hl with
  | nil =>
    intro p b p' b' hp he
    simp only [encodeTable, Out.ok.injEq, Prod.mk.injEq] at he
    obtain ⟨rfl, rfl⟩ := he
    exact ⟨hp, rfl, Nat.le_refl _, by simp [tlvBytes]⟩
  | @cons c cs vs ss bss l h1 h2 _ ih =>
    intro p b p' b' hp he
    obtain ⟨m1, _⟩ := membVals_ok h1
    have hdb : ∀ bs ∈ bss, dom c.ti bs.length := fun bs hbs => hd (c.ti, bs) (by simp [hbs])
    simp only [encodeTable, m1] at he
    cases hv : encodeVals cfg c vs 0 p b with
    | ok q =>
      obtain ⟨p1, b1⟩ := q
      rw [hv] at he
      simp only at he
      have k : PutOk cfg p1 b1 ∧ b1.cap = b.cap ∧ b.data.length ≤ b1.data.length ∧
          (b1.data.length + cfg.tlMin ≤ b1.cap →
            b1.data = b.data ++ tlvBytes hdr (bss.map fun bs => (c.ti, bs))) := by
        cases bss with
        | nil =>
          cases h2
          simp only [encodeVals, Out.ok.injEq, Prod.mk.injEq] at hv
          obtain ⟨rfl, rfl⟩ := hv
          exact ⟨hp, rfl, Nat.le_refl _, by simp [tlvBytes]⟩
        | cons bs bss => exact encodeVals_loose h c vs _ 0 p b p1 b1 h2 hdb (hd0 _ _ (hdb bs (by simp))) hp hv
      obtain ⟨k1, k2, k3, k4⟩ := k
      obtain ⟨n1, n2, n3, n4⟩ := ih (fun x hx => hd x (by simp [hx])) p1 b1 p' b' k1 he
      refine ⟨n1, by rw [n2, k2], by omega, ?_⟩
      intro hroom
      rw [n4 hroom, k4 (by omega), tlvBytes_append, List.append_assoc]
    | _ => rw [hv] at he; simp at he

theorem gtlvsEncode_loose (h : cfg.Lawful hdr dom) {cs : List (Coding A)} {ss : Struct A} {l}
    (hl : Encodes (Loose cfg.tlMin) Kind.fits cs ss l) (hd : tlvsDom dom l)
    (hd0 : ∀ ti n, dom ti n → dom ti 0) (b b' : Msgb) (he : gtlvsEncode cfg ss b (some cs) = .ok b') :
    b'.cap = b.cap ∧ b.data.length ≤ b'.data.length ∧
    (b'.data.length + cfg.tlMin ≤ b'.cap → b'.data = b.data ++ tlvBytes hdr l) := by
  simp only [gtlvsEncode] at he
  cases ht : encodeTable cfg cs ss {} b with
  | ok q =>
    obtain ⟨p', b1⟩ := q
    rw [ht] at he
    simp only [dropPut, Out.ok.injEq] at he
    subst he
    exact (encodeTable_loose h hl hd hd0 {} b p' b1 (by intro _ _ _ h; simp at h) ht).2
  | _ => rw [ht] at he; simp [dropPut] at he

end Loose

mutual
theorem Ty.loose (ty : Ty) (tag : Nat) (kind : Kind) (v : Val IeVal) (hw : ty.Wf) (hg : GoodVal ty v)
    (hl : (valueOctets ty v).length ≤ 65535) :
    Loose t16l16v.tlMin (ty.coding tag kind) v (valueOctets ty v) := by
  match ty, v with
  | .ie k, .node s => simp [GoodVal, ValOf] at hg
  | .group f, .leaf v => simp [GoodVal, ValOf] at hg
  | .ie k, .leaf v =>
    simp only [GoodVal, ValOf] at hg
    obtain ⟨rfl, hr⟩ := hg
    refine ⟨_, rfl, ?_⟩
    intro b b' he
    have he' : (if v.kind = v.kind then ieEnc v b else .ub) = .ok b' := he
    rw [if_pos rfl] at he'
    have := ieEnc_exact v hr b b' he'
    subst this
    exact ⟨rfl, by simp, fun _ => by simp [valueOctets]⟩
  | .group f, .node s =>
    simp only [GoodVal, ValOf] at hg
    simp only [valueOctets] at hl ⊢
    simp only [Ty.Wf] at hw
    obtain ⟨h1, h2⟩ := Fields.loose f s hw.1 hg hl
    obtain ⟨h3, h4⟩ := octets16_eq (ieList f s) h2
    rw [structOctets_eq, ← h3]
    exact ⟨_, rfl, gtlvsEncode_loose t16l16v_lawful h1 h4 (fun _ _ => dom16_zero)⟩
theorem Fields.loose (f : Fields) (s : Struct IeVal) (hw : f.Wf) (hg : GoodStruct f s)
    (hl : (structOctets f s).length ≤ 65535) :
    Encodes (Loose t16l16v.tlMin) Kind.fits f.codings s ((ieList f s).map asIe) ∧
      ∀ x ∈ ieList f s, Fits16 x := by
  match f, s with
  | .nil, [] => exact ⟨by simpa [Fields.codings, ieList] using Encodes.nil, by simp [ieList]⟩
  | .nil, _ :: _ => simp [GoodStruct, StructOf] at hg
  | .cons _ _ _ _, [] => simp [GoodStruct, StructOf] at hg
  | .cons t k ty f, vs :: s =>
    simp only [GoodStruct, StructOf] at hg
    simp only [Fields.Wf] at hw
    obtain ⟨⟨g1, g2⟩, g3, g4⟩ := hg
    obtain ⟨w1, w2, w3, w4⟩ := hw
    have hle := hl
    rw [structOctets_eq] at hle
    simp only [structOctets, List.length_append] at hl
    obtain ⟨i1, i2⟩ := Fields.loose f s w4 g4 (by omega)
    have hv : ∀ v ∈ vs, (valueOctets ty v).length ≤ 65535 := by
      intro v hv
      have : (t, valueOctets ty v) ∈ ieList (.cons t k ty f) (vs :: s) := by
        simp only [ieList, List.mem_append, List.mem_map]
        exact .inl ⟨v, hv, rfl⟩
      have := octets16_mem_le this
      simp only at this
      omega
    refine ⟨?_, ?_⟩
    · simp only [Fields.codings, ieList, List.map_append, List.map_map]
      have e : (List.map (asIe ∘ fun v => (t, valueOctets ty v)) vs) =
          (vs.map (valueOctets ty)).map fun bs => ((ty.coding t k).ti, bs) := by
        simp [(Ty.coding_ti t k ty).1, asIe]
      rw [e]
      refine .cons ?_ (all2_map ?_) i1
      · rw [(Ty.coding_ti t k ty).2]
        cases k <;> simp [least, most, Kind.fits] at g1 g2 ⊢ <;> omega
      · intro v hvv
        exact Ty.loose ty t k v w3 (g3 v hvv) (hv v hvv)
    · intro x hx
      simp only [ieList, List.mem_append, List.mem_map] at hx
      rcases hx with ⟨v, hvv, rfl⟩ | hx
      · exact ⟨w1, hv v hvv⟩
      · exact i2 x hx
end

end Verif
