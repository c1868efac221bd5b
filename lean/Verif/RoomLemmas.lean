/-
Lemmas for C99.
-/
import Verif.SpecRoom
import Verif.SizeLemmas

namespace Verif
open Spec Props

/-! ### One IE -/

/-- What succeeds with more room is cut off by msgb_put(), or succeeds as well. -/
def Hard (f : Msgb → Out Msgb) : Prop :=
  ∀ (b : Msgb) (k : Nat) (b' : Msgb), b.data.length ≤ b.cap → f ⟨b.cap + k, b.data⟩ = .ok b' →
    b'.cap = b.cap + k ∧ ((f b = .ok ⟨b.cap, b'.data⟩ ∧ b'.data.length ≤ b.cap) ∨ f b = .abort)

theorem Hard.put (o : List UInt8) : Hard fun b => b.put o := by
  intro b k b' hb h
  change Msgb.put _ o = _ at h
  show _ ∧ ((Msgb.put _ o = _ ∧ _) ∨ Msgb.put _ o = _)
  unfold Msgb.put at h ⊢
  split at h
  · simp only [Out.ok.injEq] at h
    subst h
    refine ⟨rfl, ?_⟩
    by_cases hc : b.data.length + o.length ≤ b.cap
    · rw [if_pos hc]; exact .inl ⟨rfl, by simpa using hc⟩
    · rw [if_neg hc]; exact .inr rfl
  · simp at h

theorem Hard.ok : Hard fun b => .ok b := by
  intro b k b' hb h
  simp only [Out.ok.injEq] at h
  subst h
  exact ⟨rfl, .inl ⟨rfl, hb⟩⟩

theorem Hard.err (e : Errno) : Hard fun b => .err e b := by intro b k b' hb h; simp at h
theorem Hard.ub : Hard fun _ => .ub := by intro b k b' hb h; simp at h

theorem Hard.bind {f g : Msgb → Out Msgb} (hf : Hard f) (hg : Hard g) : Hard fun b => (f b).bind g := by
  intro b k b' hb h
  obtain ⟨b1, h1, h2⟩ := Out.bind_eq_ok h
  obtain ⟨c1, d1⟩ := hf b k b1 hb h1
  have e1 : b1 = ⟨b.cap + k, b1.data⟩ := by cases b1; simp only at c1; rw [c1]
  show _ ∧ (((f b).bind g = _ ∧ _) ∨ (f b).bind g = _)
  rcases d1 with ⟨d1, d2⟩ | d1
  · rw [e1] at h2
    have := hg ⟨b.cap, b1.data⟩ k b' d2 h2
    rw [d1]
    exact this
  · rw [e1] at h2
    rw [d1]
    by_cases hl : b1.data.length ≤ b.cap
    · exact ⟨(hg ⟨b.cap, b1.data⟩ k b' hl h2).1, .inr rfl⟩
    · have := hg ⟨b.cap + k, b1.data⟩ 0 b'
      have hb1 : b1.data.length ≤ b.cap + k := by
        have := (hf ⟨b.cap + k, b.data⟩ 0 b1 (by simp only; omega) h1).2
        rcases this with ⟨-, t⟩ | t
        · exact t
        · rw [h1] at t; simp at t
      exact ⟨(this hb1 h2).1, .inr rfl⟩

theorem Hard.ite {f g : Msgb → Out Msgb} (p : Prop) [Decidable p] (hf : Hard f) (hg : Hard g) :
    Hard fun b => if p then f b else g b := by
  split
  · exact hf
  · exact hg

theorem Hard.num (k v : Nat) : Hard fun b => b.num k v := Hard.put _
theorem Hard.opt (p : Bool) (k v : Nat) : Hard fun b => b.opt p k v := Hard.ite _ (Hard.num k v) Hard.ok
theorem Hard.addr (p : Bool) (f : Sockaddr → Bool) (l : Nat) (a : Sockaddr) : Hard fun b => b.addr p f l a :=
  Hard.ite _ (Hard.ite _ (Hard.put _) (Hard.err _)) Hard.ok
theorem Hard.agree (x y : Bool) (o : List UInt8) : Hard fun b => b.agree x y o :=
  Hard.ite _ (Hard.err _) (Hard.ite _ (Hard.put _) Hard.ok)

/-- The values whose encoders refuse a lack of room. -/
def Soft : IeVal → Prop
  | .networkInst _ => True
  | .nodeId (.fqdn _) => True
  | _ => False

theorem ieEnc_hard (v : IeVal) (hs : ¬ Soft v) : Hard (ieEnc v) := by
  unfold ieEnc
  cases v with
  | cause v => exact Hard.num _ _
  | offendingIe v => exact Hard.num _ _
  | u8 v => exact Hard.num _ _
  | u16 v => exact Hard.num _ _
  | u32 v => exact Hard.num _ _
  | ifaceType v => exact Hard.num _ _
  | sourceIface v => exact Hard.num _ _
  | destIface v => exact Hard.num _ _
  | nodeId v =>
    cases v with
    | v4 a => exact Hard.bind (Hard.num _ _) (Hard.put _)
    | v6 a => exact Hard.bind (Hard.num _ _) (Hard.put _)
    | fqdn s => exact absurd trivial hs
    | other t => exact Hard.bind (Hard.num _ _) (Hard.err _)
  | upFeatures bits => exact Hard.put _
  | cpFeatures bits => exact Hard.put _
  | fSeid v =>
    exact Hard.bind (Hard.num _ _) (Hard.bind (Hard.num _ _) (Hard.bind (Hard.addr _ _ _ _) (Hard.addr _ _ _ _)))
  | fTeid v =>
    cases v with
    | fixed t ip =>
      exact Hard.bind (Hard.num _ _) (Hard.bind (Hard.num _ _) (Hard.bind (Hard.addr _ _ _ _) (Hard.addr _ _ _ _)))
    | choose a b c d => exact Hard.bind (Hard.num _ _) (Hard.opt _ _ _)
  | applyAction bits => exact Hard.put _
  | networkInst s => exact absurd trivial hs
  | ohc v =>
    simp only [encOhc]
    refine Hard.bind (Hard.put _) ?_
    cases ohcParts v.desc with
    | ok parts =>
      exact Hard.bind (Hard.agree _ _ _) (Hard.bind (Hard.agree _ _ _) (Hard.bind (Hard.agree _ _ _)
        (Hard.bind (Hard.agree _ _ _) (Hard.bind (Hard.agree _ _ _) (Hard.agree _ _ _)))))
    | _ => exact Hard.ub
  | apr s => exact Hard.ite _ (Hard.put _) Hard.ok
  | ohr v => exact Hard.bind (Hard.num _ _) (Hard.opt _ _ _)
  | ueIp v =>
    exact Hard.bind (Hard.num _ _) (Hard.bind (Hard.addr _ _ _ _) (Hard.bind (Hard.addr _ _ _ _)
      (Hard.bind (Hard.opt _ _ _) (Hard.opt _ _ _))))

theorem encName_short (s : List UInt8) (b : Msgb) (h : b.tailroom < s.length + 1) : encName s b = .err .EINVAL b := by
  simp only [encName, apnFromStr]
  rw [if_pos h]

theorem ieEnc_ends (v : IeVal) (h : InRange v) (b : Msgb) (hb : b.data.length ≤ b.cap) :
    FateIs b (ieFate v b.tailroom) (ieEnc v b) := by
  unfold ieFate
  by_cases hfit : (wire v).length ≤ b.tailroom
  · rw [if_pos hfit]
    exact puts_wire v h b (by unfold Msgb.tailroom at hfit; omega)
  · rw [if_neg hfit]
    have hcrash : ¬ Soft v → ieEnc v b = .abort := by
      intro hs
      have hbig := puts_wire v h ⟨b.cap + (wire v).length, b.data⟩ (by simp only; omega)
      obtain ⟨-, ⟨-, g⟩ | g⟩ := ieEnc_hard v hs b (wire v).length _ hb hbig
      · simp only [List.length_append] at g
        unfold Msgb.tailroom at hfit
        omega
      · exact g
    split
    · next s =>
      have hl := labelOctets_length s
      simp only [wire] at hfit
      exact ⟨b, encName_short s b (by omega)⟩
    · next s =>
      have hl := labelOctets_length s
      by_cases h0 : b.tailroom = 0
      · rw [if_pos h0]
        show (b.num 1 2).bind _ = .abort
        have : b.num 1 2 = .abort := by
          show b.put _ = _
          unfold Msgb.put
          unfold Msgb.tailroom at h0
          exact if_neg (by simp; omega)
        rw [this]; rfl
      · rw [if_neg h0]
        have hn := Puts.num 1 2 b (by unfold Msgb.tailroom at h0; simp; omega)
        refine ⟨{ b with data := b.data ++ be 1 2 }, ?_⟩
        show (b.num 1 2).bind _ = _
        have hn' : b.num 1 2 = .ok { b with data := b.data ++ be 1 2 } := hn
        rw [hn']
        refine encName_short s _ ?_
        simp only [wire, List.length_append, List.length_cons, List.length_nil] at hfit
        simp only [Msgb.tailroom, List.length_append, be_length] at hfit h0 ⊢
        omega
    · next h1 h2 =>
      refine hcrash ?_
      intro hs
      cases v <;> try exact hs
      · next n => cases n <;> first | exact hs | exact h2 _ rfl
      · exact h1 _ rfl

/-! ### Levels -/

theorem Spec.Level.octets_put (l : Level) (tag : Nat) (o : List UInt8) :
    Level.octets { l with ies := (tag, o) :: l.ies } = l.octets ++ ie16 (tag, o) := by
  simp [Level.octets, octets16]

theorem Spec.Level.octets_add_length (l : Level) (o : List UInt8) : (l.add o).octets.length = l.octets.length + o.length := by
  unfold Level.add
  split
  · next h => simp [Level.octets, h, octets16]; 
  · next h => simp [Level.octets, h, octets16, ie16_length]; omega

/-- Where the last TL of a level is, if the level is written behind `n` octets. -/
def putOf (n : Nat) (l : Level) : Put :=
  match l.ies with
  | [] => {}
  | (tag, _) :: ies =>
    { last := some ({ tag := tag }, n + (l.lead ++ octets16 ies.reverse).length, n + (l.lead ++ octets16 ies.reverse).length + 4) }

/-- A level that is written behind `base` has this fate. -/
def EndsAt (base : List UInt8) (cap : Nat) : Fate Level → Out (Put × Msgb) → Prop
  | .done l, r => r = .ok (putOf base.length l, ⟨cap, base ++ l.octets⟩)
  | .refused, r => ∃ x, r = .err .EINVAL x
  | .crash, r => r = .abort

/-- The encoder of a table entry has the fate `φ`, and writes at most `m` octets. -/
def HasFate (c : Coding IeVal) (v : Val IeVal) (φ : Nat → Fate (List UInt8)) (m : Nat) : Prop :=
  (∃ enc, c.enc = some enc ∧ ∀ b : Msgb, b.data.length ≤ b.cap → FateIs b (φ b.tailroom) (enc v b)) ∧
  ∀ r o, φ r = .done o → o.length ≤ r ∧ o.length ≤ m

theorem hdr16_ie16 (tag : Nat) (o : List UInt8) (h : tag ≤ 65535) (ho : o.length ≤ 65535) :
    hdr16 { tag := tag } o.length ++ o = ie16 (tag, o) := by
  have := (octets16_eq [(tag, o)] (by simp [Fits16, h, ho])).1
  simpa [tlvBytes, octets16, asIe] using this

theorem hdr16_length (ti : TagInst) (n : Nat) : (hdr16 ti n).length = 4 := t16l16v_lawful.hdr_len ti n

/-- osmo_gtlv_put_update_tl() for the last IE of a level, after `o` was appended. -/
theorem update_last (base : List UInt8) (cap : Nat) (lead : List UInt8) (ies : List Ie) (tag : Nat) (c o : List UInt8)
    (n : Nat) (ht : tag ≤ 65535) (hl : c.length + o.length ≤ 65535) (hn : (c.length = n)) :
    putUpdateTl t16l16v (putOf base.length ⟨lead, (tag, c) :: ies⟩)
      ⟨cap, base ++ (lead ++ octets16 ies.reverse ++ hdr16 { tag := tag } n ++ c) ++ o⟩ =
      .ok (putOf base.length ⟨lead, (tag, c ++ o) :: ies⟩,
        ⟨cap, base ++ Level.octets ⟨lead, (tag, c ++ o) :: ies⟩⟩) := by
  have e0 : base ++ (lead ++ octets16 ies.reverse ++ hdr16 { tag := tag } n ++ c) ++ o =
      (base ++ (lead ++ octets16 ies.reverse)) ++ (hdr16 { tag := tag } n ++ (c ++ o)) := by
    simp only [List.append_assoc]
  rw [e0]
  have hA : (base ++ (lead ++ octets16 ies.reverse)).length = base.length + (lead ++ octets16 ies.reverse).length :=
    List.length_append
  generalize hx : base ++ (lead ++ octets16 ies.reverse) = x at hA
  unfold putUpdateTl putOf
  simp only
  rw [← hA]
  have hlen : (x ++ (hdr16 { tag := tag } n ++ (c ++ o))).length - (x.length + 4) = (c ++ o).length := by
    simp only [List.length_append, hdr16_length]; omega
  rw [hlen, t16l16v_lawful.store _ _ _ ⟨rfl, by simp only; omega, by simp only [List.length_append]; omega⟩
    (by show 4 ≤ _; omega)]
  simp only [hdr16_length]
  have hdrop : (x ++ (hdr16 { tag := tag } n ++ (c ++ o))).drop (x.length + 4) = c ++ o := by
    rw [show x.length + 4 = (x ++ hdr16 { tag := tag } n).length by simp [hdr16_length], ← List.append_assoc,
      List.drop_left]
  rw [hdrop, List.take_left]
  congr 3
  rw [List.append_assoc, hdr16_ie16 _ _ ht (by simp only [List.length_append]; omega), ← hx]
  simp [Level.octets, octets16]

/-- Tags that fit the field. -/
def Spec.Level.TagsOk (l : Level) : Prop := ∀ x ∈ l.ies, x.1 ≤ 65535

/-- What the rest of the loop does, after this fate of one IE. -/
def NextIs (base : List UInt8) (cap n : Nat) (l : Level) (rest : Put → Msgb → Out (Put × Msgb)) :
    Fate Level → Out (Put × Msgb) → Prop
  | .done l', r => r = rest (putOf base.length l') ⟨cap, base ++ l'.octets⟩ ∧ l'.TagsOk ∧
      l'.octets.length ≤ l.octets.length + n ∧ base.length + l'.octets.length ≤ cap
  | .refused, r => ∃ x, r = .err .EINVAL x
  | .crash, r => r = .abort

theorem encodeVals_step (base : List UInt8) (cap m : Nat) (c : Coding IeVal) (v : Val IeVal) (vs : List (Val IeVal))
    (i tag : Nat) (φ : Nat → Fate (List UInt8)) (l : Level) (hf : HasFate c v φ m) (hti : c.ti = { tag := tag })
    (ht : tag ≤ 65535) (hk : c.kind.exceeds i = false) (hl : l.octets.length + (4 + m) ≤ 65535) (htags : l.TagsOk)
    (hcap : base.length + l.octets.length ≤ cap) :
    NextIs base cap (4 + m) l (fun p b => encodeVals t16l16v c vs (i + 1) p b) (l.write (cap - base.length) tag φ)
      (encodeVals t16l16v c (v :: vs) i (putOf base.length l) ⟨cap, base ++ l.octets⟩) := by
  obtain ⟨⟨enc, hen, he⟩, hm⟩ := hf
  have hleft : cap - base.length - l.octets.length = Msgb.tailroom ⟨cap, base ++ l.octets⟩ := by
    simp only [Msgb.tailroom, List.length_append]; omega
  simp only [encodeVals, hk, hen, Bool.false_eq_true, if_false]
  unfold Level.write
  rw [hleft]
  simp only
  by_cases h4 : 4 ≤ Msgb.tailroom ⟨cap, base ++ l.octets⟩
  · rw [if_pos h4]
    have hput : putTli t16l16v (putOf base.length l) ⟨cap, base ++ l.octets⟩ c.ti 0 =
        .ok (putOf base.length ⟨l.lead, (tag, []) :: l.ies⟩, ⟨cap, base ++ l.octets ++ hdr16 { tag := tag } 0⟩) := by
      unfold putTli
      rw [t16l16v_lawful.store _ _ _ (by rw [hti]; exact ⟨rfl, by simp only; omega, by omega⟩) h4, hti]
      simp only [hdr16_length, putOf]
      congr 4
      simp [Level.octets]
    rw [hput]
    simp only [ignoreErr]
    have hcap' : base.length + l.octets.length + 4 ≤ cap := by
      simp only [Msgb.tailroom, List.length_append] at h4; omega
    have hb := he ⟨cap, base ++ l.octets ++ hdr16 { tag := tag } 0⟩ (by
      simp only [List.length_append, hdr16_length]; omega)
    rw [show Msgb.tailroom ⟨cap, base ++ l.octets ++ hdr16 { tag := tag } 0⟩ =
      Msgb.tailroom ⟨cap, base ++ l.octets⟩ - 4 by
        simp only [Msgb.tailroom, List.length_append, hdr16_length]; omega] at hb
    cases hφ : φ (Msgb.tailroom ⟨cap, base ++ l.octets⟩ - 4) with
    | done o =>
      rw [hφ] at hb
      obtain ⟨o1, o2⟩ := hm _ _ hφ
      simp only [Msgb.tailroom, List.length_append] at o1
      change enc v _ = .ok _ at hb
      rw [hb]
      simp only [Fate.then]
      have e : (⟨cap, base ++ l.octets ++ hdr16 { tag := tag } 0 ++ o⟩ : Msgb) =
          ⟨cap, base ++ (l.lead ++ octets16 l.ies.reverse ++ hdr16 { tag := tag } 0 ++ []) ++ o⟩ := by
        simp [Level.octets]
      rw [e, update_last base cap l.lead l.ies tag [] o 0 ht (by simp only [List.length_nil]; omega) rfl]
      simp only [List.nil_append]
      refine ⟨rfl, ?_, ?_, ?_⟩
      · intro x hx
        rcases List.mem_cons.1 hx with rfl | hx
        · exact ht
        · exact htags x hx
      · rw [Level.octets_put]
        simp only [List.length_append, ie16_length]
        omega
      · rw [Level.octets_put]
        simp only [List.length_append, ie16_length]
        omega
    | refused =>
      rw [hφ] at hb
      obtain ⟨b', hb⟩ := hb
      rw [hb]
      exact ⟨_, rfl⟩
    | crash =>
      rw [hφ] at hb
      change enc v _ = _ at hb
      rw [hb]
      rfl
  · rw [if_neg h4]
    have hput : ∃ e, putTli t16l16v (putOf base.length l) ⟨cap, base ++ l.octets⟩ c.ti 0 = .error e := by
      obtain ⟨e, h⟩ := t16l16v_lawful.store_err (Msgb.tailroom ⟨cap, base ++ l.octets⟩) c.ti 0 (by
        show _ < 4; omega)
      exact ⟨e, by unfold putTli; rw [h]⟩
    obtain ⟨e, hput⟩ := hput
    rw [hput]
    simp only [ignoreErr]
    have hb := he ⟨cap, base ++ l.octets⟩ (by simp only [List.length_append]; omega)
    cases hφ : φ (Msgb.tailroom ⟨cap, base ++ l.octets⟩) with
    | done o =>
      rw [hφ] at hb
      obtain ⟨o1, o2⟩ := hm _ _ hφ
      simp only [Msgb.tailroom, List.length_append] at o1
      change enc v _ = .ok _ at hb
      rw [hb]
      simp only [Fate.then]
      have hlen := l.octets_add_length o
      refine ⟨?_, ?_, by omega, by omega⟩
      · obtain ⟨lead, ies⟩ := l
        cases ies with
        | nil =>
          simp only [putOf, putUpdateTl, Level.add]
          simp [Level.octets, octets16]
        | cons x ies =>
          obtain ⟨t, d⟩ := x
          have hd : Level.octets ⟨lead, (t, d) :: ies⟩ = lead ++ octets16 ies.reverse ++ hdr16 { tag := t } d.length ++ d := by
            have hdl : d.length ≤ 65535 := by
              simp only [Level.octets, List.reverse_cons, octets16, List.flatMap_append, List.flatMap_cons,
                List.flatMap_nil, List.length_append, ie16_length, List.length_nil] at hl
              omega
            rw [List.append_assoc _ _ d, hdr16_ie16 t d (htags (t, d) (by simp)) hdl]
            simp [Level.octets, octets16]
          have hdl : d.length + o.length ≤ 65535 := by
            rw [hd] at hl
            simp only [List.length_append] at hl
            omega
          rw [hd, update_last base cap lead ies t d o d.length (htags (t, d) (by simp)) hdl rfl]
          rfl
      · intro x hx
        unfold Level.add at hx
        split at hx
        · next h => simp [h] at hx
        · next t d ies h =>
          rcases List.mem_cons.1 hx with rfl | hx
          · exact htags (t, d) (by rw [h]; simp)
          · exact htags x (by rw [h]; simp [hx])
    | refused =>
      rw [hφ] at hb
      obtain ⟨b', hb⟩ := hb
      rw [hb]
      exact ⟨_, rfl⟩
    | crash =>
      rw [hφ] at hb
      change enc v _ = _ at hb
      rw [hb]
      rfl

theorem encodeVals_fate (base : List UInt8) (cap : Nat) (c : Coding IeVal) (φ : Val IeVal → Nat → Fate (List UInt8))
    (m : Val IeVal → Nat) (tag : Nat) (hti : c.ti = { tag := tag }) (ht : tag ≤ 65535) (vs : List (Val IeVal)) :
    ∀ (i : Nat) (l : Level), (∀ v ∈ vs, HasFate c v (φ v) (m v)) → (∀ j, j < i + vs.length → c.kind.exceeds j = false) →
    l.octets.length + (vs.map fun v => 4 + m v).sum ≤ 65535 → l.TagsOk → base.length + l.octets.length ≤ cap →
    NextIs base cap (vs.map fun v => 4 + m v).sum l (fun p b => .ok (p, b))
      (Level.writeAll (fun v => Level.write (cap - base.length) tag (φ v)) vs l)
      (encodeVals t16l16v c vs i (putOf base.length l) ⟨cap, base ++ l.octets⟩) := by
  induction vs with
  | nil =>
    intro i l _ _ _ htags hcap
    exact ⟨rfl, htags, by simp, hcap⟩
  | cons v vs ih =>
    intro i l hf hk hl htags hcap
    simp only [List.map_cons, List.sum_cons] at hl ⊢
    have h1 := encodeVals_step base cap (m v) c v vs i tag (φ v) l (hf v (by simp)) hti ht
      (hk i (by simp)) (by omega) htags hcap
    simp only [Level.writeAll]
    generalize encodeVals t16l16v c (v :: vs) i (putOf base.length l) ⟨cap, base ++ l.octets⟩ = r at h1 ⊢
    cases hw : l.write (cap - base.length) tag (φ v) with
    | done l1 =>
      rw [hw] at h1
      obtain ⟨rfl, t1, n1, c1⟩ := h1
      have h2 := ih (i + 1) l1 (fun x hx => hf x (by simp [hx])) (fun j hj => hk j (by simp only [List.length_cons]; omega))
        (by omega) t1 c1
      simp only [Fate.then]
      generalize encodeVals t16l16v c vs (i + 1) (putOf base.length l1) ⟨cap, base ++ l1.octets⟩ = r at h2 ⊢
      generalize Level.writeAll (fun v => Level.write (cap - base.length) tag (φ v)) vs l1 = w at h2 ⊢
      cases w with
      | done l2 =>
        obtain ⟨e, t2, n2, c2⟩ := h2
        exact ⟨e, t2, by omega, c2⟩
      | refused => exact h2
      | crash => exact h2
    | refused => rw [hw] at h1; exact h1
    | crash => rw [hw] at h1; exact h1

/-- A part of a table, from here on, has this fate. -/
def TableFate (cs : List (Coding IeVal)) (s : Struct IeVal) (ψ : Nat → Level → Fate Level) (n : Nat) : Prop :=
  ∀ (base : List UInt8) (cap : Nat) (l : Level), l.octets.length + n ≤ 65535 → l.TagsOk →
    base.length + l.octets.length ≤ cap →
    NextIs base cap n l (fun p b => .ok (p, b)) (ψ (cap - base.length) l)
      (encodeTable t16l16v cs s (putOf base.length l) ⟨cap, base ++ l.octets⟩)

theorem tableFate_nil (s : Struct IeVal) : TableFate [] s (fun _ l => .done l) 0 := by
  intro base cap l _ htags hcap
  exact ⟨by simp only [encodeTable], htags, by omega, hcap⟩

theorem tableFate_cons {c : Coding IeVal} {cs : List (Coding IeVal)} {vs : List (Val IeVal)} {s : Struct IeVal}
    {φ : Val IeVal → Nat → Fate (List UInt8)} {m : Val IeVal → Nat} {tag n : Nat} {ψ : Nat → Level → Fate Level}
    (hti : c.ti = { tag := tag }) (ht : tag ≤ 65535) (hv : ∀ v ∈ vs, HasFate c v (φ v) (m v))
    (hk : c.kind.fits vs.length) (ih : TableFate cs s ψ n) :
    TableFate (c :: cs) (vs :: s)
      (fun room l => (Level.writeAll (fun v => Level.write room tag (φ v)) vs l).then (ψ room))
      ((vs.map fun v => 4 + m v).sum + n) := by
  intro base cap l hl htags hcap
  obtain ⟨m1, m2⟩ := membVals_ok hk
  simp only [encodeTable, m1]
  have h1 := encodeVals_fate base cap c φ m tag hti ht vs 0 l hv (fun j hj => m2 j (by omega)) (by omega) htags hcap
  generalize encodeVals t16l16v c vs 0 (putOf base.length l) ⟨cap, base ++ l.octets⟩ = r at h1 ⊢
  generalize Level.writeAll (fun v => Level.write (cap - base.length) tag (φ v)) vs l = w at h1 ⊢
  cases w with
  | done l1 =>
    obtain ⟨rfl, t1, n1, c1⟩ := h1
    have h2 := ih base cap l1 (by omega) t1 c1
    simp only [Fate.then]
    generalize ψ (cap - base.length) l1 = w at h2 ⊢
    cases w with
    | done l2 =>
      obtain ⟨e, t2, n2, c2⟩ := h2
      exact ⟨e, t2, by omega, c2⟩
    | refused => exact h2
    | crash => exact h2
  | refused => obtain ⟨x, rfl⟩ := h1; exact ⟨x, rfl⟩
  | crash => change r = _ at h1; subst h1; rfl

/-- A whole table. -/
theorem TableFate.ends {cs : List (Coding IeVal)} {s : Struct IeVal} {ψ : Nat → Level → Fate Level} {n : Nat}
    (h : TableFate cs s ψ n) (hn : n ≤ 65535) :
    (∀ b : Msgb, b.data.length ≤ b.cap →
      FateIs b ((ψ b.tailroom {}).then fun l => .done l.octets) (gtlvsEncode t16l16v s b (some cs))) := by
  intro b hb
  have e0 : Level.octets {} = [] := rfl
  have h1 := h b.data b.cap {} (by rw [e0]; simpa using hn) (by intro x hx; simp at hx) (by rw [e0]; simpa using hb)
  rw [e0, List.append_nil] at h1
  have e1 : putOf b.data.length {} = {} := rfl
  rw [e1] at h1
  have e2 : (⟨b.cap, b.data⟩ : Msgb) = b := rfl
  rw [e2] at h1
  change NextIs _ _ _ _ _ (ψ b.tailroom {}) _ at h1
  simp only [gtlvsEncode]
  generalize encodeTable t16l16v cs s {} b = r at h1 ⊢
  generalize ψ b.tailroom {} = w at h1 ⊢
  cases w with
  | done l => obtain ⟨rfl, -⟩ := h1; rfl
  | refused => obtain ⟨⟨x, y⟩, rfl⟩ := h1; exact ⟨y, rfl⟩
  | crash => change r = _ at h1; subst h1; rfl

theorem TableFate.bound {cs : List (Coding IeVal)} {s : Struct IeVal} {ψ : Nat → Level → Fate Level} {n : Nat}
    (h : TableFate cs s ψ n) (hn : n ≤ 65535) (r : Nat) (o : List UInt8)
    (ho : ((ψ r {}).then fun l => Fate.done l.octets) = .done o) : o.length ≤ r ∧ o.length ≤ n := by
  have e0 : Level.octets {} = [] := rfl
  have h1 := h [] r {} (by rw [e0]; simpa using hn) (by intro x hx; simp at hx) (by rw [e0]; simp)
  simp only [List.length_nil, Nat.sub_zero] at h1
  cases hw : ψ r {} with
  | done l =>
    rw [hw] at h1 ho
    simp only [Fate.then, Fate.done.injEq] at ho
    subst ho
    obtain ⟨-, -, h2, h3⟩ := h1
    rw [e0] at h2
    simp only [List.length_nil, Nat.zero_add] at h2 h3
    exact ⟨h3, h2⟩
  | refused => rw [hw] at ho; simp [Fate.then] at ho
  | crash => rw [hw] at ho; simp [Fate.then] at ho

/-- A table that has no more entries for what is left of the struct, or the other way round, is none of ours. -/
theorem flatMap_ie16_length (t : Nat) (g : Val IeVal → List UInt8) (vs : List (Val IeVal)) :
    (vs.flatMap fun v => ie16 (t, g v)).length = (vs.map fun v => 4 + (g v).length).sum := by
  induction vs with
  | nil => rfl
  | cons v vs ih => simp only [List.flatMap_cons, List.length_append, ih, ie16_length, List.map_cons, List.sum_cons]

mutual
theorem Ty.fate (ty : Ty) (tag : Nat) (kind : Kind) (v : Val IeVal) (hw : ty.Wf) (hg : GoodVal ty v)
    (hl : (valueOctets ty v).length ≤ 65535) :
    HasFate (ty.coding tag kind) v (valueFate ty v) (valueOctets ty v).length := by
  match ty, v with
  | .ie k, .node s => simp [GoodVal, ValOf] at hg
  | .group f, .leaf v => simp [GoodVal, ValOf] at hg
  | .ie k, .leaf v =>
    simp only [GoodVal, ValOf] at hg
    obtain ⟨rfl, hr⟩ := hg
    refine ⟨⟨_, rfl, ?_⟩, ?_⟩
    · intro b hb
      have : FateIs b (ieFate v b.tailroom) (if v.kind = v.kind then ieEnc v b else .ub) := by
        rw [if_pos rfl]
        exact ieEnc_ends v hr b hb
      exact this
    · intro r o ho
      simp only [valueFate, ieFate] at ho
      split at ho
      · next h =>
        simp only [Fate.done.injEq] at ho
        subst ho
        exact ⟨h, by simp [valueOctets]⟩
      · split at ho <;> first | (exact absurd ho (by simp)) | (split at ho <;> exact absurd ho (by simp))
  | .group f, .node s =>
    simp only [GoodVal, ValOf] at hg
    simp only [valueOctets] at hl ⊢
    simp only [Ty.Wf] at hw
    have h1 := Fields.fate f s hw.1 hg hl
    refine ⟨⟨_, rfl, ?_⟩, ?_⟩
    · intro b hb
      simp only [valueFate]
      exact h1.ends hl b hb
    · intro r o ho
      simp only [valueFate] at ho
      exact h1.bound (ψ := fun room l => levelFate room f s l) hl r o ho
theorem Fields.fate (f : Fields) (s : Struct IeVal) (hw : f.Wf) (hg : GoodStruct f s)
    (hl : (structOctets f s).length ≤ 65535) :
    TableFate f.codings s (fun room l => levelFate room f s l) (structOctets f s).length := by
  match f, s with
  | .nil, [] => exact tableFate_nil []
  | .nil, _ :: _ => simp [GoodStruct, StructOf] at hg
  | .cons _ _ _ _, [] => simp [GoodStruct, StructOf] at hg
  | .cons t k ty f, vs :: s =>
    simp only [GoodStruct, StructOf] at hg
    simp only [Fields.Wf] at hw
    obtain ⟨⟨g1, g2⟩, g3, g4⟩ := hg
    obtain ⟨w1, w2, w3, w4⟩ := hw
    have hle := hl
    rw [structOctets_eq] at hle
    have hv : ∀ v ∈ vs, (valueOctets ty v).length ≤ 65535 := by
      intro v hv
      have : (t, valueOctets ty v) ∈ ieList (.cons t k ty f) (vs :: s) := by
        simp only [ieList, List.mem_append, List.mem_map]
        exact .inl ⟨v, hv, rfl⟩
      have := octets16_mem_le this
      simp only at this
      omega
    simp only [structOctets, List.length_append] at hl ⊢
    have ih := Fields.fate f s w4 g4 (by omega)
    have hfit : (ty.coding t k).kind.fits vs.length := by
      rw [(Ty.coding_ti t k ty).2]
      cases k <;> simp [least, most, Kind.fits] at g1 g2 ⊢ <;> omega
    have := tableFate_cons (φ := valueFate ty) (m := fun v => (valueOctets ty v).length) (tag := t)
      (Ty.coding_ti t k ty).1 w1 (fun v hvv => Ty.fate ty t k v w3 (g3 v hvv) (hv v hvv)) hfit ih
    rw [flatMap_ie16_length t (valueOctets ty) vs]
    intro base cap l h1 h2 h3
    have := this base cap l h1 h2 h3
    simp only [levelFate, Fields.codings]
    exact this
end

end Verif
