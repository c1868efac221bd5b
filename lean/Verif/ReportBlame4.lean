/-
Lemmas about error reporting: unordered decoding of PFCP IEs fails exactly as the specification says.
-/
import Verif.ReportBlame3

namespace Verif
open Spec Props

theorem octets16_append (a b : List Ie) : octets16 (a ++ b) = octets16 a ++ octets16 b := by simp [octets16]

/-- Any octets: IEs, and maybe octets that are none. -/
theorem octets_parse (o : List UInt8) : ∃ ies junk, (∀ x ∈ ies, Fits16 x) ∧ o = octets16 ies ++ junk ∧ (junk = [] ∨ NoIe junk) := by
  obtain ⟨l, junk, e, d, j⟩ := parse_total t16l16v_lawful _ o (Nat.le_refl _)
  obtain ⟨ies, rfl, hfit⟩ := Width.unmap .w16 l d
  refine ⟨ies, junk, hfit, ?_, ?_⟩
  · rw [← (octets16_eq ies hfit).1]; exact e
  · rw [noIe_iff]; exact j

/-- Decoding as a fold over the IEs. -/
theorem run_eq (f : Fields) (ies : List Ie) (hfit : ∀ x ∈ ies, Fits16 x) (junk rest : List UInt8) (hz : (0 : UInt8) ∈ rest)
    (hj : junk = [] ∨ NoIe junk) :
    ∃ es ti, EvsAt es ies ∧
      decodeUnorderedR f.rcodings { cfg := t16l16v, mem := octets16 ies ++ junk ++ rest, srcLen := (octets16 ies ++ junk).length } =
        (decodeManyR f.rcodings es (emptyStruct f.codings)).bind fun s =>
          if junk = [] then (checkMandatoryR ti f.rcodings s 0).bind fun _ => (.ok s, [])
          else returnError .EBADMSG { tag := brokenTag ies junk } .broken := by
  obtain ⟨e1, e2⟩ := octets16_eq ies hfit
  rw [noIe_iff] at hj
  have ha : Load.At { cfg := t16l16v, mem := octets16 ies ++ junk ++ rest, srcLen := (octets16 ies ++ junk).length } t16l16v
      (tlvBytes hdr16 (ies.map asIe) ++ junk) := by
    refine ⟨rfl, by simp, by simp [Load.pos], ?_⟩
    rw [e1]
    show List.drop 0 (List.take (octets16 ies ++ junk).length (octets16 ies ++ junk ++ rest)) = _
    rw [List.drop_zero, List.take_left]
  obtain ⟨es, ti, h1, h2, h3, h4⟩ := loopR_eq t16l16v_lawful f.rcodings (ies.map asIe) junk e2 hj _ ha
  refine ⟨es, ti, EvsAt.of h1 hz (fun e he => ?_), ?_⟩
  · obtain ⟨x, hx⟩ := h2 e he
    exact ⟨x, by rw [hx, List.drop_left]⟩
  · unfold decodeUnorderedR
    have hlen : (ies.map asIe).length < (octets16 ies ++ junk).length + 2 := by
      have h5 := tlvBytes_length_ge t16l16v_lawful (ies.map asIe)
      have := t16l16v_lawful.tlMin_pos
      have : (ies.map asIe).length ≤ (ies.map asIe).length * t16l16v.tlMin := Nat.le_mul_of_pos_right _ this
      rw [e1] at h5
      simp only [List.length_append]; omega
    simp only [Load.start]
    rw [h4 _ _ hlen, Rep.bind_assoc, f.rcodings_plain]
    congr 1
    funext s
    by_cases hjj : junk = []
    · rw [if_pos hjj, if_pos hjj, Rep.bind_ok]
    · rw [if_neg hjj, if_neg hjj]
      obtain ⟨h5, n, h6⟩ := h3 hjj
      have := brokenTag_eq (n := n) h5 h6
      subst this
      rfl

/-! ### The check at the end -/

theorem checkR_entries (last : TagInst) (ies : List Ie) (f : Fields) : ∀ (ss : Struct IeVal) (idx : Nat),
    ss.map List.length = (entries f).map (fun x => timesOf x.1 ies) → idx + (entries f).length ≤ maxCodings →
    (checkMandatoryR last f.rcodings ss idx = (.ok (), []) ∧ ∀ x ∈ entries f, least x.2.1 ≤ timesOf x.1 ies) ∨
    (∃ pre iei max m ty post, entries f = pre ++ (iei, .multi max m, ty) :: post ∧
      (∀ x ∈ pre, least x.2.1 ≤ timesOf x.1 ies) ∧ timesOf iei ies < m ∧
      checkMandatoryR last f.rcodings ss idx = returnError .EINVAL { tag := iei } (.tooFew m (timesOf iei ies))) ∨
    (∃ pre iei ty post, entries f = pre ++ (iei, .mand, ty) :: post ∧
      (∀ x ∈ pre, least x.2.1 ≤ timesOf x.1 ies) ∧ timesOf iei ies = 0 ∧
      checkMandatoryR last f.rcodings ss idx = returnError .EINVAL { tag := iei } .missing) := by
  match f with
  | .nil =>
    intro ss idx _ _
    refine .inl ⟨?_, by simp [entries]⟩
    cases ss <;> rfl
  | .cons t k ty f =>
    intro ss idx hs hi
    cases ss with
    | nil => simp [entries] at hs
    | cons s ss =>
      simp only [entries, List.map_cons, List.cons.injEq] at hs
      obtain ⟨hs0, hs⟩ := hs
      simp only [entries, List.length_cons] at hi
      have ih := checkR_entries last ies f ss (idx + 1) hs (by omega)
      obtain ⟨t1, t2⟩ := rcoding_ti ty t k
      -- if this entry is satisfied
      have skip : least k ≤ timesOf t ies →
          checkMandatoryR last (Fields.cons t k ty f).rcodings (s :: ss) idx = checkMandatoryR last f.rcodings ss (idx + 1) →
          (checkMandatoryR last (Fields.cons t k ty f).rcodings (s :: ss) idx = (.ok (), []) ∧
            ∀ x ∈ entries (.cons t k ty f), least x.2.1 ≤ timesOf x.1 ies) ∨
          (∃ pre iei max m ty' post, entries (.cons t k ty f) = pre ++ (iei, .multi max m, ty') :: post ∧
            (∀ x ∈ pre, least x.2.1 ≤ timesOf x.1 ies) ∧ timesOf iei ies < m ∧
            checkMandatoryR last (Fields.cons t k ty f).rcodings (s :: ss) idx =
              returnError .EINVAL { tag := iei } (.tooFew m (timesOf iei ies))) ∨
          (∃ pre iei ty' post, entries (.cons t k ty f) = pre ++ (iei, .mand, ty') :: post ∧
            (∀ x ∈ pre, least x.2.1 ≤ timesOf x.1 ies) ∧ timesOf iei ies = 0 ∧
            checkMandatoryR last (Fields.cons t k ty f).rcodings (s :: ss) idx =
              returnError .EINVAL { tag := iei } .missing) := by
        intro hl he
        rw [he]
        rcases ih with ⟨a, b⟩ | ⟨pre, iei, max, m, ty', post, a, b, c, d⟩ | ⟨pre, iei, ty', post, a, b, c, d⟩
        · refine .inl ⟨a, fun x hx => ?_⟩
          simp only [entries, List.mem_cons] at hx
          rcases hx with rfl | hx
          · exact hl
          · exact b x hx
        · refine .inr (.inl ⟨(t, k, ty) :: pre, iei, max, m, ty', post, by simp [entries, a], ?_, c, d⟩)
          intro x hx
          rcases List.mem_cons.1 hx with rfl | hx
          · exact hl
          · exact b x hx
        · refine .inr (.inr ⟨(t, k, ty) :: pre, iei, ty', post, by simp [entries, a], ?_, c, d⟩)
          intro x hx
          rcases List.mem_cons.1 hx with rfl | hx
          · exact hl
          · exact b x hx
      have eq : checkMandatoryR last (Fields.cons t k ty f).rcodings (s :: ss) idx =
          match k with
          | .opt => checkMandatoryR last f.rcodings ss (idx + 1)
          | .multi _ mandatory =>
            if timesOf t ies < mandatory then returnError .EINVAL { tag := t } (.tooFew mandatory (timesOf t ies))
            else checkMandatoryR last f.rcodings ss (idx + 1)
          | .mand =>
            if idx ≥ maxCodings then returnError .ENOTSUP last .tooManyEntries
            else if timesOf t ies = 0 then returnError .EINVAL { tag := t } .missing
            else checkMandatoryR last f.rcodings ss (idx + 1) := by
        rw [Fields.rcodings, checkMandatoryR, t1, t2, hs0]
        rfl
      cases k with
      | opt => exact skip (Nat.zero_le _) eq
      | multi max m =>
        simp only at eq
        by_cases hm : timesOf t ies < m
        · rw [if_pos hm] at eq
          exact .inr (.inl ⟨[], t, max, m, ty, entries f, rfl, by simp, hm, eq⟩)
        · rw [if_neg hm] at eq
          exact skip (by simp only [least]; omega) eq
      | mand =>
        simp only at eq
        rw [if_neg (by omega)] at eq
        by_cases hm : timesOf t ies = 0
        · rw [if_pos hm] at eq
          exact .inr (.inr ⟨[], t, ty, entries f, rfl, by simp, hm, eq⟩)
        · rw [if_neg hm] at eq
          exact skip (by simp only [least]; omega) eq

theorem entries_length (f : Fields) : (entries f).length = f.tags.length := by
  match f with
  | .nil => rfl
  | .cons t k ty f => simp only [entries, Fields.tags, List.length_cons, entries_length f]

/-- The sizes of the members. -/
theorem decoded_sizes {f : Fields} (hf : Table f) {es : List Ev} {ies : List Ie} (he : EvsAt es ies) {s : Struct IeVal}
    (h : decodeMany f.codings es (emptyStruct f.codings) = .ok s) :
    s.map List.length = (entries f).map fun x => timesOf x.1 ies := by
  obtain ⟨hok, hu⟩ := decodeMany_used hf he h
  have hl : s.length = (entries f).length := by rw [hok.len, f.codings_length, entries_length]
  have hn := hf.wf.nodup'
  apply List.ext_getElem
  · simpa using hl
  · intro i h1 h2
    simp only [List.length_map] at h1 h2
    rw [List.getElem_map, List.getElem_map]
    rcases hx : (entries f)[i] with ⟨iei, kind, ty⟩
    have hm : (iei, kind, ty) ∈ entries f := by rw [← hx]; exact List.getElem_mem h2
    rw [← hu iei kind ty hm]
    have hc : f.codings = (entries f).map fun x => x.2.2.coding x.1 x.2.1 := by
      rw [← f.rcodings_plain, rcodings_entries, unreported, List.map_map]
      apply List.map_congr_left
      intro x _
      exact Ty.rcoding_c x.1 x.2.1 x.2.2
    have hci : i < f.codings.length := by rw [hc]; simpa using h2
    have e1 : f.codings = f.codings.take i ++ f.codings[i] :: f.codings.drop (i + 1) := by
      rw [List.getElem_cons_drop, List.take_append_drop]
    have e2 : s = s.take i ++ s[i] :: s.drop (i + 1) := by
      rw [List.getElem_cons_drop, List.take_append_drop]
    have e3 : f.codings[i].ti = { tag := iei } := by
      have : f.codings[i] = ty.coding iei kind := by
        simp only [hc, List.getElem_map, hx]
      rw [this]; exact (Ty.coding_ti iei kind ty).1
    rw [e1] at hn
    have := usedBy_distinct hn (spre := s.take i) (s := s[i]) (spost := s.drop (i + 1)) (by simp; omega)
    rw [← e1, ← e2, e3] at this
    exact this.symm

/-- The first element without a property. -/
theorem first_unique {α} {P : α → Prop} : ∀ {a a' : List α} {x x' : α} {b b' : List α}, a ++ x :: b = a' ++ x' :: b' →
    (∀ y ∈ a, P y) → (∀ y ∈ a', P y) → ¬ P x → ¬ P x' → x = x'
  | [], [], _, _, _, _, h, _, _, _, _ => by simp only [List.nil_append, List.cons.injEq] at h; exact h.1
  | [], y :: a', _, _, _, _, h, _, h2, h3, _ => by
    simp only [List.nil_append, List.cons_append, List.cons.injEq] at h
    rw [h.1] at h3
    exact absurd (h2 y (by simp)) h3
  | y :: a, [], _, _, _, _, h, h1, _, _, h4 => by
    simp only [List.nil_append, List.cons_append, List.cons.injEq] at h
    rw [← h.1] at h4
    exact absurd (h1 y (by simp)) h4
  | y :: a, y' :: a', _, _, _, _, h, h1, h2, h3, h4 => by
    simp only [List.cons_append, List.cons.injEq] at h
    exact first_unique h.2 (fun z hz => h1 z (by simp [hz])) (fun z hz => h2 z (by simp [hz])) h3 h4

/-! ### Decoding -/

/-- What decoding the octets of a layout's IEs returns and reports, if it fails. -/
def BlamesRight (f : Fields) : Prop := ∀ o rest : List UInt8, (0 : UInt8) ∈ rest → ∀ rc l,
  decodeUnorderedR f.rcodings { cfg := t16l16v, mem := o ++ rest, srcLen := o.length } = (.err rc, l) ↔ Blames f o rc l

/-- A failure with one IE. -/
theorem decodeOneR_blames {f : Fields} (hf : Table f)
    (ih : ∀ iei kind g, (iei, kind, Ty.group g) ∈ entries f → BlamesRight g) {slots : Struct IeVal}
    (hok : StructOk f.codings slots) {ies : List Ie}
    (hu : ∀ iei kind ty, (iei, kind, ty) ∈ entries f → usedBy { tag := iei } f.codings slots = timesOf iei ies)
    {e : Ev} {x : Ie} (he : EvAt e x) (rc : Errno) (l : List Report) :
    decodeOneR f.rcodings slots e.1 e.2.1 e.2.2 = (.err rc, l) ↔
      (∃ kind ty, (x.1, kind, ty) ∈ entries f ∧ timesOf x.1 ies = most kind ∧ rc = .ENOTSUP ∧
        l = [{ ti := { tag := x.1 }, rc := .ENOTSUP, text := .surplus (most kind) }]) ∨
      (∃ kind k, (x.1, kind, .ie k) ∈ entries f ∧ timesOf x.1 ies < most kind ∧ (¬ ∃ y, IeMeans k x.2 y) ∧
        rc = valueError k x.2 ∧
        l = [{ ti := { tag := x.1 }, rc := valueError k x.2, text := .value x.2.length (x.2.take 16) (16 < x.2.length) }]) ∨
      (∃ kind g l', (x.1, kind, .group g) ∈ entries f ∧ timesOf x.1 ies < most kind ∧ Blames g x.2 rc l' ∧
        l = l' ++ [{ ti := { tag := x.1 }, rc := rc, text := .inside }]) := by
  by_cases hm : ∃ kind ty, (x.1, kind, ty) ∈ entries f
  · obtain ⟨kind, ty, hm⟩ := hm
    obtain ⟨d, hd⟩ := Ty.has_dec ty x.1 kind
    have hux := hu x.1 kind ty hm
    rcases decodeOneR_entry hf hok he hm hd with ⟨a, b⟩ | ⟨a, st, b⟩
    · rw [b]
      constructor
      · intro h
        simp only [returnError, Prod.mk.injEq, Res.err.injEq] at h
        obtain ⟨rfl, rfl⟩ := h
        exact .inl ⟨kind, ty, hm, by omega, rfl, rfl⟩
      · rintro (⟨k', t', h1, h2, rfl, rfl⟩ | ⟨k', k, h1, h2, _⟩ | ⟨k', g, l', h1, h2, _⟩)
        · obtain ⟨rfl, rfl⟩ := hf.unique hm h1; rfl
        · obtain ⟨rfl, rfl⟩ := hf.unique hm h1; omega
        · obtain ⟨rfl, rfl⟩ := hf.unique hm h1; omega
    · rw [b]
      obtain ⟨r, hz, hr⟩ := he.mem
      have hlen := he.len
      -- only an error of the decoder
      have main : ∀ (R : Res (Val IeVal)) (m : List Report) (c : Complaint) (st : Val IeVal → Struct IeVal),
          Rep.bind (match R with
            | .err rc => (.err rc, m ++ [{ ti := { tag := x.1 }, rc := rc, text := c }])
            | r => (r, m)) (fun v => (.ok (st v), [])) = (.err rc, l) ↔
          R = .err rc ∧ l = m ++ [{ ti := { tag := x.1 }, rc := rc, text := c }] := by
        intro R m c st
        cases R with
        | err e =>
          simp only [Rep.bind, Prod.mk.injEq, Res.err.injEq]
          constructor
          · rintro ⟨rfl, rfl⟩; exact ⟨rfl, rfl⟩
          · rintro ⟨rfl, rfl⟩; exact ⟨rfl, rfl⟩
        | _ => simp [Rep.bind]
      refine Iff.trans (main _ _ _ st) ?_
      cases ty with
      | ie k =>
        simp only [Ty.coding, ieCoding, leafCoding, Option.some.injEq] at hd
        subst hd
        have e1 : ((Ty.ie k).rcoding x.1 kind).decReports e.2.1 e.2.2 = [] := rfl
        have e2 : ((Ty.ie k).rcoding x.1 kind).complaint e.2.1 e.2.2 = .value x.2.length (x.2.take 16) (16 < x.2.length) := by
          show Complaint.value e.2.2 (e.2.1.take (min 16 e.2.2)) (decide (e.2.2 > 16)) = _
          rw [hlen, hr, List.take_append_of_le_length (by omega)]
          congr 1
          by_cases h16 : x.2.length ≤ 16
          · rw [Nat.min_eq_right h16, List.take_of_length_le (Nat.le_refl _), List.take_of_length_le h16]
          · rw [Nat.min_eq_left (by omega)]
        rw [e1, e2, hr, hlen, List.nil_append]
        have e3 : ((ieDec k (x.2 ++ r) x.2.length).bind fun v => Res.ok (Val.leaf v)) = .err rc ↔
            (¬ ∃ y, IeMeans k x.2 y) ∧ rc = valueError k x.2 := by
          have hret : ((ieDec k (x.2 ++ r) x.2.length).bind fun v => Res.ok (Val.leaf v)).Returns :=
            (Ty.localWhen (.ie k) x.1 kind).2 _ rfl x.2 r hz
          constructor
          · intro h
            cases hv : ieDec k (x.2 ++ r) x.2.length with
            | err e0 =>
              rw [hv] at h
              simp only [Res.bind, Res.err.injEq] at h
              subst h
              refine ⟨?_, ieDec_err hz hv⟩
              rintro ⟨y, hy⟩
              rw [(ieDec_iff k x.2 r hz y).2 hy] at hv
              cases hv
            | _ => rw [hv] at h; cases h
          · rintro ⟨h1, h2⟩
            cases hv : ieDec k (x.2 ++ r) x.2.length with
            | ok y => exact absurd ⟨y, (ieDec_iff k x.2 r hz y).1 hv⟩ h1
            | err e0 => rw [h2, ieDec_err hz hv]; rfl
            | _ => rw [hv] at hret; exact hret.elim
        rw [e3]
        constructor
        · rintro ⟨⟨h1, rfl⟩, h2⟩
          exact .inr (.inl ⟨kind, k, hm, by omega, h1, rfl, h2⟩)
        · rintro (⟨k', t', h1, h2, _⟩ | ⟨k', k2, h1, h2, h3, rfl, h4⟩ | ⟨k', g, l', h1, h2, _⟩)
          · obtain ⟨rfl, rfl⟩ := hf.unique hm h1; omega
          · obtain ⟨rfl, h⟩ := hf.unique hm h1; cases h; exact ⟨⟨h3, rfl⟩, h4⟩
          · obtain ⟨rfl, h⟩ := hf.unique hm h1; cases h
      | group g =>
        simp only [Ty.coding, nestedCoding, Option.some.injEq] at hd
        subst hd
        have e1 : ((Ty.group g).rcoding x.1 kind).decReports e.2.1 e.2.2 =
            (decodeUnorderedR g.rcodings { cfg := t16l16v, mem := x.2 ++ r, srcLen := x.2.length }).2 := by
          rw [hr, hlen]; rfl
        have e2 : ((Ty.group g).rcoding x.1 kind).complaint e.2.1 e.2.2 = .inside := rfl
        have hg := ih x.1 kind g hm x.2 r hz
        rw [e1, e2, hr, hlen]
        have e3 : ((gtlvsDecode { cfg := t16l16v, mem := x.2 ++ r, srcLen := x.2.length } false (some g.codings)).bind
            fun s => Res.ok (Val.node s)) = .err rc ↔
            (decodeUnorderedR g.rcodings { cfg := t16l16v, mem := x.2 ++ r, srcLen := x.2.length }).1 = .err rc := by
          rw [decodeUnorderedR_fst, g.rcodings_plain]
          show (decodeUnordered _ _).bind _ = _ ↔ _
          cases decodeUnordered g.codings { cfg := t16l16v, mem := x.2 ++ r, srcLen := x.2.length } <;> simp [Res.bind]
        rw [e3]
        constructor
        · rintro ⟨h1, h2⟩
          exact .inr (.inr ⟨kind, g, _, hm, by omega, (hg rc _).1 (Prod.ext h1 rfl), h2⟩)
        · rintro (⟨k', t', h1, h2, _⟩ | ⟨k', k2, h1, h2, _⟩ | ⟨k', g', l', h1, h2, h3, h4⟩)
          · obtain ⟨rfl, rfl⟩ := hf.unique hm h1; omega
          · obtain ⟨rfl, h⟩ := hf.unique hm h1; cases h
          · obtain ⟨rfl, h⟩ := hf.unique hm h1
            cases h
            have := (hg rc l').2 h3
            rw [this]
            exact ⟨rfl, h4⟩
  · rw [decodeOneR_other hf hok he (fun kind ty h => hm ⟨kind, ty, h⟩)]
    constructor
    · intro h; cases h
    · rintro (⟨k', t', h1, _⟩ | ⟨k', k, h1, _⟩ | ⟨k', g, l', h1, _⟩)
      · exact absurd ⟨_, _, h1⟩ hm
      · exact absurd ⟨_, _, h1⟩ hm
      · exact absurd ⟨_, _, h1⟩ hm

theorem Fields.blames_of {f : Fields} (hf : Table f)
    (ih : ∀ iei kind g, (iei, kind, Ty.group g) ∈ entries f → BlamesRight g) : BlamesRight f := by
  intro o rest hz rc l
  have hsil := Fields.silent f
  have hsmall : 0 + (entries f).length ≤ maxCodings := by
    rw [Nat.zero_add, entries_length]; exact hf.small
  constructor
  · intro h
    obtain ⟨ies, junk, hfit, rfl, hj⟩ := octets_parse o
    obtain ⟨es, ti, h1, h2⟩ := run_eq f ies hfit junk rest hz hj
    rw [h2] at h
    rcases hd : decodeManyR f.rcodings es (emptyStruct f.codings) with ⟨r, m⟩
    have hfst := decodeManyR_fst f.rcodings es (emptyStruct f.codings)
    rw [hd, f.rcodings_plain] at hfst
    cases r with
    | ok s =>
      have hm : m = [] := by
        have := decodeManyR_silent hsil es (emptyStruct f.codings) s (by rw [hd])
        rw [hd] at this; exact this
      subst hm
      rw [hd, Rep.bind_ok] at h
      have hleg := (legible_iff hf h1 hfit).1 ⟨s, hfst.symm⟩
      by_cases hjj : junk = []
      · rw [if_pos hjj] at h
        subst hjj
        rw [List.append_nil]
        rcases checkR_entries ti ies f s 0 (decoded_sizes hf h1 hfst.symm) hsmall with
          ⟨a, b⟩ | ⟨pre, iei, max, m, ty, post, a, b, c, d⟩ | ⟨pre, iei, ty, post, a, b, c, d⟩
        · rw [a] at h; cases h
        · rw [d] at h
          simp only [returnError, Rep.bind, Prod.mk.injEq, Res.err.injEq] at h
          obtain ⟨rfl, rfl⟩ := h
          exact .tooFew hleg a b c
        · rw [d] at h
          simp only [returnError, Rep.bind, Prod.mk.injEq, Res.err.injEq] at h
          obtain ⟨rfl, rfl⟩ := h
          exact .missing hleg a b c
      · rw [if_neg hjj] at h
        simp only [returnError, Prod.mk.injEq, Res.err.injEq] at h
        obtain ⟨rfl, rfl⟩ := h
        exact .broken hleg (hj.resolve_left hjj)
    | err e =>
      have h' : decodeManyR f.rcodings es (emptyStruct f.codings) = (.err rc, l) := by
        rw [hd] at h ⊢; exact h
      obtain ⟨es1, t, p, n, es2, s1, rfl, g1, g2⟩ := decodeManyR_err hsil es h'
      obtain ⟨i1, x, i2, rfl, a1, a2, a3⟩ := h1.split
      rw [f.rcodings_plain] at g1
      have hleg := (legible_iff hf a1 (fun y hy => hfit y (by simp [hy]))).1 ⟨s1, g1⟩
      obtain ⟨hok, hu⟩ := decodeMany_used hf a1 g1
      have hx : Fits16 (x.1, x.2) := hfit x (by simp)
      have eo : octets16 (i1 ++ x :: i2) ++ junk = octets16 (i1 ++ [(x.1, x.2)]) ++ (octets16 i2 ++ junk) := by
        rw [octets16_append, octets16_append, show x :: i2 = [x] ++ i2 from rfl, octets16_append]
        simp
      rw [eo]
      rcases (decodeOneR_blames hf ih hok hu (e := (t, p, n)) a2 rc l).1 g2 with
        ⟨kind, ty, b1, b2, rfl, rfl⟩ | ⟨kind, k, b1, b2, b3, rfl, rfl⟩ | ⟨kind, g, l', b1, b2, b3, rfl⟩
      · exact .surplus hleg hx b1 b2
      · exact .value hleg hx b1 b2 b3
      · exact .inside hleg hx b1 b2 b3
    | _ => rw [hd] at h; cases h
  · intro h
    -- an IE at which decoding fails
    have fault : ∀ {ies : List Ie} {x : Ie} {o2 : List UInt8}, Legible f ies → Fits16 x →
        (∀ slots, StructOk f.codings slots →
          (∀ iei kind ty, (iei, kind, ty) ∈ entries f → usedBy { tag := iei } f.codings slots = timesOf iei ies) →
          ∀ e, EvAt e x → decodeOneR f.rcodings slots e.1 e.2.1 e.2.2 = (.err rc, l)) →
        decodeUnorderedR f.rcodings { cfg := t16l16v, mem := octets16 (ies ++ [x]) ++ o2 ++ rest,
                                      srcLen := (octets16 (ies ++ [x]) ++ o2).length } = (.err rc, l) := by
      intro ies x o2 hleg hx hone
      obtain ⟨i2, junk, hfit2, rfl, hj⟩ := octets_parse o2
      have eo : octets16 (ies ++ [x]) ++ (octets16 i2 ++ junk) = octets16 (ies ++ x :: i2) ++ junk := by
        rw [octets16_append, octets16_append, show x :: i2 = [x] ++ i2 from rfl, octets16_append]
        simp
      rw [eo]
      have hfit : ∀ y ∈ ies ++ x :: i2, Fits16 y := by
        intro y hy
        rcases List.mem_append.1 hy with hy | hy
        · exact hleg.1 y hy
        · rcases List.mem_cons.1 hy with rfl | hy
          · exact hx
          · exact hfit2 y hy
      obtain ⟨es, ti, h1, h2⟩ := run_eq f _ hfit junk rest hz hj
      rw [h2]
      obtain ⟨es1, e, es2, rfl, a1, a2, a3⟩ := h1.split'
      obtain ⟨s1, hs1⟩ := (legible_iff hf a1 hleg.1).2 hleg
      obtain ⟨hok, hu⟩ := decodeMany_used hf a1 hs1
      have hs1' := decodeManyR_ok hsil (cs := f.rcodings) (es := es1) (slots := emptyStruct f.codings) (s := s1)
        (by rw [f.rcodings_plain]; exact hs1)
      obtain ⟨t, p, n⟩ := e
      have hd := hone s1 hok hu (t, p, n) a2
      simp only at hd
      rw [decodeManyR_append, hs1', Rep.bind_ok, decodeManyR, hd]
      rfl
    cases h with
    | @broken _ ies junk hleg hno =>
      obtain ⟨es, ti, h1, h2⟩ := run_eq f ies hleg.1 junk rest hz (.inr hno)
      rw [h2]
      obtain ⟨s1, hs1⟩ := (legible_iff hf h1 hleg.1).2 hleg
      have hs1' := decodeManyR_ok hsil (cs := f.rcodings) (es := es) (slots := emptyStruct f.codings) (s := s1)
        (by rw [f.rcodings_plain]; exact hs1)
      rw [hs1', Rep.bind_ok, if_neg hno.1]
      rfl
    | @surplus _ ies iei kind ty v o2 hleg hx hm ht =>
      refine fault hleg hx fun slots hok hu e he => ?_
      exact (decodeOneR_blames hf ih hok hu he _ _).2 (.inl ⟨kind, ty, hm, ht, rfl, rfl⟩)
    | @value _ ies iei kind k v o2 hleg hx hm ht hno =>
      refine fault hleg hx fun slots hok hu e he => ?_
      exact (decodeOneR_blames hf ih hok hu he _ _).2 (.inr (.inl ⟨kind, k, hm, ht, hno, rfl, rfl⟩))
    | @inside _ ies iei kind g v o2 _ l' hleg hx hm ht hb =>
      refine fault hleg hx fun slots hok hu e he => ?_
      exact (decodeOneR_blames hf ih hok hu he _ _).2 (.inr (.inr ⟨kind, g, l', hm, ht, hb, rfl⟩))
    | @tooFew _ ies pre iei max m ty post hleg he hpre ht =>
      obtain ⟨es, ti, h1, h2⟩ := run_eq f ies hleg.1 [] rest hz (.inl rfl)
      rw [List.append_nil] at h2
      rw [h2]
      obtain ⟨s1, hs1⟩ := (legible_iff hf h1 hleg.1).2 hleg
      have hs1' := decodeManyR_ok hsil (cs := f.rcodings) (es := es) (slots := emptyStruct f.codings) (s := s1)
        (by rw [f.rcodings_plain]; exact hs1)
      rw [hs1', Rep.bind_ok, if_pos rfl]
      rcases checkR_entries ti ies f s1 0 (decoded_sizes hf h1 hs1) hsmall with
          ⟨a, b⟩ | ⟨pre', iei', max', m', ty', post', a, b, c, d⟩ | ⟨pre', iei', ty', post', a, b, c, d⟩
      · have := b (iei, .multi max m, ty) (by rw [he]; simp)
        simp only [least] at this
        omega
      · rw [d]
        have := first_unique (P := fun x : Nat × Kind × Ty => least x.2.1 ≤ timesOf x.1 ies) (he.symm.trans a) hpre b
          (by simp only [least]; omega) (by simp only [least]; omega)
        simp only [Prod.mk.injEq, Kind.multi.injEq] at this
        obtain ⟨rfl, ⟨rfl, rfl⟩, rfl⟩ := this
        rfl
      · have := first_unique (P := fun x : Nat × Kind × Ty => least x.2.1 ≤ timesOf x.1 ies) (he.symm.trans a) hpre b
          (by simp only [least]; omega) (by simp only [least]; omega)
        simp only [Prod.mk.injEq, reduceCtorEq, false_and, and_false] at this
    | @missing _ ies pre iei ty post hleg he hpre ht =>
      obtain ⟨es, ti, h1, h2⟩ := run_eq f ies hleg.1 [] rest hz (.inl rfl)
      rw [List.append_nil] at h2
      rw [h2]
      obtain ⟨s1, hs1⟩ := (legible_iff hf h1 hleg.1).2 hleg
      have hs1' := decodeManyR_ok hsil (cs := f.rcodings) (es := es) (slots := emptyStruct f.codings) (s := s1)
        (by rw [f.rcodings_plain]; exact hs1)
      rw [hs1', Rep.bind_ok, if_pos rfl]
      rcases checkR_entries ti ies f s1 0 (decoded_sizes hf h1 hs1) hsmall with
          ⟨a, b⟩ | ⟨pre', iei', max', m', ty', post', a, b, c, d⟩ | ⟨pre', iei', ty', post', a, b, c, d⟩
      · have := b (iei, .mand, ty) (by rw [he]; simp)
        simp only [least] at this
        omega
      · have := first_unique (P := fun x : Nat × Kind × Ty => least x.2.1 ≤ timesOf x.1 ies) (he.symm.trans a) hpre b
          (by simp only [least]; omega) (by simp only [least]; omega)
        simp only [Prod.mk.injEq, reduceCtorEq, false_and, and_false] at this
      · rw [d]
        have := first_unique (P := fun x : Nat × Kind × Ty => least x.2.1 ≤ timesOf x.1 ies) (he.symm.trans a) hpre b
          (by simp only [least]; omega) (by simp only [least]; omega)
        simp only [Prod.mk.injEq, true_and] at this
        obtain ⟨rfl, rfl⟩ := this
        rfl

mutual
theorem Ty.blames (ty : Ty) (hw : ty.Wf) (hr : ty.Room) : ∀ g, ty = .group g → BlamesRight g := by
  match ty with
  | .ie k => intro g h; cases h
  | .group f =>
    intro g h
    cases h
    simp only [Ty.Wf] at hw
    simp only [Ty.Room] at hr
    exact Fields.blames_of ⟨hw.1, hw.2, hr⟩ (Fields.blames_in f hw.1 hr)
theorem Fields.blames_in (f : Fields) (hw : f.Wf) (hr : f.Room) :
    ∀ iei kind g, (iei, kind, Ty.group g) ∈ entries f → BlamesRight g := by
  match f with
  | .nil => simp [entries]
  | .cons t k ty f =>
    intro iei kind g hm
    simp only [Fields.Wf] at hw
    simp only [Fields.Room] at hr
    simp only [entries, List.mem_cons, Prod.mk.injEq] at hm
    rcases hm with ⟨_, _, h⟩ | hm
    · exact Ty.blames ty hw.2.2.1 hr.2.1 g h.symm
    · exact Fields.blames_in f hw.2.2.2 hr.2.2 iei kind g hm
end

/-- Decoding the octets of a layout's IEs fails with an error code and reports exactly if these are what is wrong. -/
theorem Fields.blames {f : Fields} (hf : Table f) : BlamesRight f := Fields.blames_of hf (Fields.blames_in f hf.wf hf.room)

end Verif
