/-
Property theorems C08-C18: decoding and encoding structs driven by coding tables
(src/libosmo-gtlv/gtlv_dec_enc.c).
-/
import Verif.PropsTlv
import Verif.SpecDecEnc
import Verif.OrdLemmas

namespace Verif.Props
open Verif Spec

variable {A : Type}

/-! Bridges between specification and lemmas. -/

def Width.hdr : Width → TagInst → Nat → List UInt8
  | .w8 => hdr8
  | .w16 => hdr16
def Width.dom : Width → TagInst → Nat → Prop
  | .w8 => dom8
  | .w16 => dom16

theorem Width.lawful (w : Width) : w.cfg.Lawful (Width.hdr w) (Width.dom w) := by
  cases w
  · exact t8l8v_lawful
  · exact t16l16v_lawful

theorem Width.octets_eq (w : Width) (l : List Ie) (h : ∀ x ∈ l, w.Fits x) :
    tlvBytes (Width.hdr w) (l.map asIe) = w.octets l ∧ tlvsDom (Width.dom w) (l.map asIe) := by
  cases w
  · exact octets8_eq l h
  · exact octets16_eq l h

theorem Width.dom_zero (w : Width) : ∀ ti n, Width.dom w ti n → Width.dom w ti 0 := by
  cases w
  · exact fun _ _ h => dom8_zero h
  · exact fun _ _ h => dom16_zero h

theorem Width.inst {w : Width} {t n} (h : Width.dom w t n) : t.inst = none := by
  cases w <;> exact h.1

/-- Every list of IEs in the model's sense is one in the specification's sense. -/
theorem Width.unmap (w : Width) (l : List (TagInst × List UInt8)) (h : tlvsDom (Width.dom w) l) :
    ∃ ies : List Ie, l = ies.map asIe ∧ (∀ x ∈ ies, w.Fits x) := by
  refine ⟨l.map fun x => (x.1.tag, x.2), ?_, ?_⟩
  · rw [List.map_map]
    conv => lhs; rw [← List.map_id l]
    apply List.map_congr_left
    rintro ⟨⟨t, i⟩, v⟩ hx
    have : i = none := Width.inst (h _ hx)
    subst this; rfl
  · intro x hx
    obtain ⟨y, hy, rfl⟩ := List.mem_map.mp hx
    have := h y hy
    cases w
    · obtain ⟨_, h4, h5⟩ := this; exact ⟨by simp only; omega, by simp only; omega⟩
    · obtain ⟨_, h4, h5⟩ := this; exact ⟨by simp only; omega, by simp only; omega⟩

theorem most_eq (k : Kind) : most k = k.cap := by cases k <;> rfl
theorem capacity_eq (t : TagInst) (cs : List (Coding A)) : capacity t cs = totalCap t cs := by
  unfold capacity totalCap
  simp only [most_eq]

theorem countTag_eq {es : List Ev} {ies : List Ie} (h : EvsOf es (ies.map asIe)) (t : TagInst) :
    countTag t es = count t ies := by
  replace h := h.1
  unfold countTag count withTag
  induction es generalizing ies with
  | nil => cases ies <;> simp at h ⊢
  | cons e es ih =>
    cases ies with
    | nil => simp at h
    | cons x ies =>
      simp only [List.map_cons, List.cons.injEq] at h
      have h1 : e.1 = tagOf x := by have := congrArg Prod.fst h.1; exact this
      have := ih h.2
      simp only [List.filter_cons, h1]
      split
      · simp only [List.length_cons, this]
      · exact this

theorem required_le_held {t : TagInst} {cs : List (Coding A)} {s : Struct A}
    (hl : s.length = cs.length)
    (h : ∀ x ∈ cs.zip s, least x.1.kind ≤ x.2.length) : required t cs ≤ held t cs s := by
  unfold required held
  induction cs generalizing s with
  | nil => simp
  | cons c cs ih =>
    cases s with
    | nil => simp at hl
    | cons vs s =>
      have := ih (s := s) (by simpa using hl) (fun x hx => h x (by simp [hx]))
      have h0 := h (c, vs) (by simp)
      simp only [List.filter_cons, List.zip_cons_cons]
      by_cases hc : c.ti = t <;> simp [hc] at h0 ⊢ <;> omega

theorem zip_of_get {α β} {P : α → β → Prop} {l : List α} {l' : List β} (h : ∀ (i : Nat) a b, l[i]? = some a → l'[i]? = some b → P a b) :
    ∀ x ∈ l.zip l', P x.1 x.2 := by
  rintro ⟨a, b⟩ hx
  obtain ⟨i, hi, he⟩ := List.mem_iff_getElem.mp hx
  simp only [List.getElem_zip, Prod.mk.injEq] at he
  simp only [List.length_zip] at hi
  exact h i a b (by rw [List.getElem?_eq_getElem (by omega), he.1]) (by rw [List.getElem?_eq_getElem (by omega), he.2])

theorem get_of_zip {α β} {P : α → β → Prop} {l : List α} {l' : List β} (h : ∀ x ∈ l.zip l', P x.1 x.2)
    (i : Nat) (a : α) (b : β) (h1 : l[i]? = some a) (h2 : l'[i]? = some b) : P a b := by
  have : (a, b) ∈ l.zip l' := by
    rw [List.mem_iff_getElem?]
    exact ⟨i, by simp [List.getElem?_zip_eq_some, h1, h2]⟩
  exact h _ this

/-- The IEs are determined by the octets. -/
theorem Width.octets_inj (w : Width) {ies ies' : List Ie} (hfit : ∀ x ∈ ies, w.Fits x)
    (hfit' : ∀ x ∈ ies', w.Fits x) (ho : w.octets ies = w.octets ies') : ies = ies' := by
  have inj : ∀ a b : List Ie, a.map asIe = b.map asIe → a = b := by
    intro a b
    exact (List.map_inj_right (by rintro ⟨t, v⟩ ⟨t', v'⟩ h; simp [asIe] at h; simp [h])).mp
  apply inj
  obtain ⟨a1, a2⟩ := Width.octets_eq w ies hfit
  obtain ⟨b1, b2⟩ := Width.octets_eq w ies' hfit'
  have l1 := loadAllLoop_tlvs (Width.lawful w) (ies.map asIe) a2
    (fresh w.cfg (w.octets ies) (w.octets ies).length)
    (by rw [a1]; have := fresh_at w.cfg (w.octets ies) []; rwa [List.append_nil] at this) []
    (ies.length + ies'.length + 1) (by simp; omega)
  have l2 := loadAllLoop_tlvs (Width.lawful w) (ies'.map asIe) b2
    (fresh w.cfg (w.octets ies) (w.octets ies).length)
    (by rw [b1, ← ho]; have := fresh_at w.cfg (w.octets ies) []; rwa [List.append_nil] at this) []
    (ies.length + ies'.length + 1) (by simp; omega)
  rw [l1] at l2
  simpa using l2

/-- What success of unordered decoding means for the model's lists. -/
theorem decodeUnordered_ok_inv (w : Width) (table : List (Coding A)) (mem : List UInt8) (len : Nat)
    (hw : len ≤ mem.length) (s : Struct A)
    (h : gtlvsDecode (fresh w.cfg mem len) false (some table) = .ok s) :
    ∃ ies : List Ie, ∃ es, (∀ x ∈ ies, w.Fits x) ∧ mem.take len = w.octets ies ∧ EvsOf es (ies.map asIe) ∧
      decodeMany table es (emptyStruct table) = .ok s ∧ checkMandatory table s 0 = .ok () := by
  simp only [gtlvsDecode, Bool.false_eq_true, if_false] at h
  obtain ⟨l, junk, es, h1, h2, h3, h4, h5⟩ := decodeUnordered_eq (Width.lawful w) table (fresh w.cfg mem len) rfl hw
  rw [h] at h5
  have h5 := h5.symm
  rw [Res.bind_eq_ok_iff] at h5
  obtain ⟨s1, h6, h7⟩ := h5
  by_cases hj : junk = []
  · rw [if_pos hj, Res.bind_eq_ok_iff] at h7
    obtain ⟨_, h8, h9⟩ := h7
    simp only [Res.ok.injEq] at h9
    subst h9
    obtain ⟨ies, rfl, hfit⟩ := Width.unmap w l h2
    refine ⟨ies, es, hfit, ?_, h4, h6, h8⟩
    rw [← (Width.octets_eq w ies hfit).1]
    simpa [fresh, hj] using h1
  · rw [if_neg hj] at h7; simp at h7

/-- What unordered decoding does on a sequence of IEs. -/
theorem decodeUnordered_on_ies (w : Width) (table : List (Coding A)) (ies : List Ie)
    (hfit : ∀ x ∈ ies, w.Fits x) (rest : List UInt8) :
    ∃ es, EvsOf es (ies.map asIe) ∧
      gtlvsDecode (fresh w.cfg (w.octets ies ++ rest) (w.octets ies).length) false (some table) =
        (decodeMany table es (emptyStruct table)).bind fun slots =>
          (checkMandatory table slots 0).bind fun _ => .ok slots := by
  obtain ⟨e1, e2⟩ := Width.octets_eq w ies hfit
  obtain ⟨es, h1, _, h2⟩ := decodeUnordered_of_tlvs (Width.lawful w) table (ies.map asIe) e2 rest
  refine ⟨es, h1, ?_⟩
  simp only [gtlvsDecode, Bool.false_eq_true, if_false]
  rw [e1] at h2
  exact h2

theorem evs_returns {es : List Ev} {l} (h : EvsOf es l) {table : List (Coding A)} {P : Res (Val A) → Prop}
    (hdec : ∀ c ∈ table, ∀ d, c.dec = some d → ∀ p n, n ≤ p.length → P (d p n)) :
    ∀ c ∈ table, ∀ d, c.dec = some d → ∀ e ∈ es, P (d e.2.1 e.2.2) :=
  fun c hc d hd e he => hdec c hc d hd _ _ (h.2 e he)

/-! ## C08 -/

/-- C08: success of unordered decoding, on any readable window: the window is a sequence of IEs;
the struct obeys the table; for each tag the table has room for, the struct holds exactly as many
values as the tag occurs; and each tag occurs at least as often as required. -/
theorem C08_unordered_success (w : Width) (table : List (Coding A)) (mem : List UInt8) (len : Nat)
    (hw : len ≤ mem.length) (s : Struct A)
    (h : gtlvsDecode (fresh w.cfg mem len) false (some table) = .ok s) :
    ∃ ies : List Ie, (∀ x ∈ ies, w.Fits x) ∧ mem.take len = w.octets ies ∧
      Obeys table s ∧
      (∀ t, capacity t table ≠ 0 → held t table s = count t ies) ∧
      (∀ t, required t table ≤ count t ies) := by
  obtain ⟨ies, es, hfit, hoct, hes, hmany, hchk⟩ := decodeUnordered_ok_inv w table mem len hw s h
  obtain ⟨hok, hu⟩ := decodeMany_ok es (emptyStruct_ok table) hmany
  have hm := checkMandatory_ok table s 0 hok.len hchk
  have hz : ∀ x ∈ table.zip s, least x.1.kind ≤ x.2.length := by
    intro x hx
    obtain ⟨m1, m2⟩ := hm x hx
    cases hk : x.1.kind with
    | mand => have := m1 hk; simp only [least]; omega
    | opt => simp [least]
    | multi mx mn => exact m2 _ _ hk
  have hheld : ∀ t, capacity t table ≠ 0 → held t table s = count t ies := by
    intro t ht
    have := hu t (by rwa [← capacity_eq])
    rw [usedBy_empty, Nat.zero_add, countTag_eq hes] at this
    exact this
  refine ⟨ies, hfit, hoct, ⟨hok.len, ?_⟩, hheld, ?_⟩
  · intro i c vs h1 h2
    refine ⟨get_of_zip (P := fun c vs => least c.kind ≤ vs.length) hz i c vs h1 h2, ?_⟩
    rw [most_eq]
    exact get_of_zip (P := fun c vs => vs.length ≤ c.kind.cap) hok.cap i c vs h1 h2
  · intro t
    have hle : required t table ≤ held t table s := required_le_held hok.len hz
    by_cases ht : capacity t table = 0
    · have : held t table s ≤ totalCap t table := usedBy_le t table s hok.len hok.cap
      rw [← capacity_eq, ht] at this
      omega
    · rw [← hheld t ht]; exact hle

/-- C08, the other direction: if a minimum is missed, unordered decoding returns an error (decoders
being functions that return). -/
theorem C08_missing_is_error (w : Width) (table : List (Coding A)) (ies : List Ie)
    (hfit : ∀ x ∈ ies, w.Fits x) (rest : List UInt8)
    (hdec : ∀ c ∈ table, ∀ d, c.dec = some d → ∀ p n, n ≤ p.length → (d p n).Returns)
    (t : TagInst) (hmiss : count t ies < required t table) :
    ∃ e, gtlvsDecode (fresh w.cfg (w.octets ies ++ rest) (w.octets ies).length) false (some table) =
      .err e := by
  have hnot : ∀ s, gtlvsDecode (fresh w.cfg (w.octets ies ++ rest) (w.octets ies).length) false
      (some table) ≠ .ok s := by
    intro s h
    obtain ⟨ies', hfit', ho, _, _, hr⟩ := C08_unordered_success w table _ _ (by simp) s h
    have he : ies' = ies := by
      rw [List.take_left] at ho
      exact (Width.octets_inj w hfit hfit' ho).symm
    subst he
    have := hr t
    omega
  obtain ⟨es, h1, h2⟩ := decodeUnordered_on_ies w table ies hfit rest
  rw [h2] at hnot ⊢
  have hr := decodeMany_returns es (evs_returns h1 (P := Res.Returns) hdec) (emptyStruct_ok table)
  cases hm : decodeMany table es (emptyStruct table) with
  | ok s =>
    rw [hm] at hnot
    have hc := checkMandatory_returns table s 0
    cases hk : checkMandatory table s 0 with
    | ok _ => exact absurd (by simp [hk]) (hnot s)
    | err e => exact ⟨e, by simp [hk]⟩
    | _ => rw [hk] at hc; exact hc.elim
  | err e => exact ⟨e, by simp⟩
  | _ => rw [hm] at hr; exact hr.elim

/-- C08: and the error is -EINVAL if nothing else is wrong: decoders succeed, no surplus. -/
theorem C08_missing_is_einval (w : Width) (table : List (Coding A)) (ies : List Ie)
    (hfit : ∀ x ∈ ies, w.Fits x) (rest : List UInt8) (hsm : SmallTable table)
    (hdec : ∀ c ∈ table, ∃ d, c.dec = some d ∧ ∀ p n, n ≤ p.length → ∃ v, d p n = .ok v)
    (hroom : ∀ t, capacity t table ≠ 0 → count t ies ≤ capacity t table)
    (t : TagInst) (hmiss : count t ies < required t table) :
    gtlvsDecode (fresh w.cfg (w.octets ies ++ rest) (w.octets ies).length) false (some table) =
      .err .EINVAL := by
  obtain ⟨e, he⟩ := C08_missing_is_error w table ies hfit rest (by
    intro c hc d hd p n hn
    obtain ⟨d', hd', hv⟩ := hdec c hc
    rw [hd] at hd'; simp only [Option.some.injEq] at hd'; subst hd'
    obtain ⟨v, hv⟩ := hv p n hn
    rw [hv]; simp [Res.Returns]) t hmiss
  obtain ⟨es, h1, h2⟩ := decodeUnordered_on_ies w table ies hfit rest
  obtain ⟨s, hs⟩ := decodeMany_succeeds (codings := table) hsm es (by
    intro c hc e he _
    obtain ⟨d, hd, hv⟩ := hdec c hc
    obtain ⟨v, hv⟩ := hv _ _ (h1.2 e he)
    exact ⟨d, v, hd, hv⟩) (emptyStruct_ok table) (by
    intro t ht
    rw [usedBy_empty, Nat.zero_add, countTag_eq h1, ← capacity_eq]
    exact hroom t (by rwa [capacity_eq]))
  rw [he] at h2 ⊢
  rw [hs] at h2
  simp only [Res.bind_ok'] at h2
  rcases checkMandatory_einval table s 0 (by have := hsm; unfold SmallTable at this; simp only [maxCodings]; omega) with hk | hk
  · rw [hk] at h2; simp at h2
  · rw [hk] at h2; simpa using h2

theorem evs_withTag (ies : List Ie) (t : TagInst) :
    ((evs (ies.map asIe)).filter fun e => e.1 = t) = evs ((withTag t ies).map asIe) := by
  unfold evs withTag
  rw [List.map_map, List.map_map, List.filter_map]
  rfl

/-- C08, complete functional description of unordered decoding for tables with distinct tags: it
succeeds with `s` exactly if `s` obeys the table and each member holds the decoded values of the
IEs with its tag, in order of appearance. -/
theorem C08_unordered_iff (w : Width) (table : List (Coding A)) (ies : List Ie)
    (hfit : ∀ x ∈ ies, w.Fits x) (rest : List UInt8) (hsm : SmallTable table)
    (hdt : DistinctTags table) (hloc : ∀ c ∈ table, LooksOnlyAtIe c)
    (hroom : ∀ c ∈ table, most c.kind ≠ 0) (s : Struct A) :
    gtlvsDecode (fresh w.cfg (w.octets ies ++ rest) (w.octets ies).length) false (some table) = .ok s ↔
      Obeys table s ∧ ∀ (i : Nat) c vs, table[i]? = some c → s[i]? = some vs →
        All2 (Decodes c) ((withTag c.ti ies).map fun x => x.2) vs := by
  obtain ⟨es, h1, h2⟩ := decodeUnordered_on_ies w table ies hfit rest
  have hl : decodeMany table es (emptyStruct table) =
      decodeMany table (evs (ies.map asIe)) (emptyStruct table) := decodeMany_local hloc h1 _
  constructor
  · intro h
    obtain ⟨_, _, _, hob, _⟩ := C08_unordered_success w table _ _ (by simp) s h
    refine ⟨hob, ?_⟩
    rw [h2, Res.bind_eq_ok_iff] at h
    obtain ⟨s1, h3, h4⟩ := h
    rw [Res.bind_eq_ok_iff] at h4
    obtain ⟨_, _, h5⟩ := h4
    simp only [Res.ok.injEq] at h5
    subst h5
    rw [hl] at h3
    intro i c vs hc hv
    obtain ⟨vs', g1, g2⟩ := decodeMany_vals hdt _ (emptyStruct_ok table) h3 i c [] hc
      (by unfold emptyStruct; rw [List.getElem?_map, hc]; rfl)
      (by rw [← most_eq]; exact hroom c (List.mem_of_getElem? hc))
    rw [hv] at g1
    simp only [List.nil_append, Option.some.injEq] at g1
    subst g1
    rw [evs_withTag] at g2
    clear h1 h2 hl h3 hv hob
    generalize withTag c.ti ies = l at g2
    induction l generalizing vs with
    | nil => cases g2; exact .nil
    | cons x l ih =>
      cases g2 with
      | cons a b => exact .cons a (ih _ b)
  · rintro ⟨hob, hv⟩
    -- the IEs sorted by table entry
    have henc : ∀ (cs : List (Coding A)) (ss : Struct A), ss.length = cs.length →
        (∀ x ∈ cs.zip ss, (least x.1.kind ≤ x.2.length ∧ x.2.length ≤ most x.1.kind) ∧
          All2 (Decodes x.1) ((withTag x.1.ti ies).map fun x => x.2) x.2) →
        Encodes (fun c v bs => Decodes c bs v) Kind.obeys cs ss
          (cs.flatMap fun c => (withTag c.ti ies).map asIe) := by
      intro cs
      induction cs with
      | nil => intro ss hl _; cases ss with
        | nil => exact .nil
        | cons => simp at hl
      | cons c cs ih =>
        intro ss hl hx
        cases ss with
        | nil => simp at hl
        | cons vs ss =>
        have hi := ih ss (by simpa using hl) (fun x h => hx x (by simp [h]))
        obtain ⟨⟨k1, k2⟩, k3⟩ := hx (c, vs) (by simp)
        have hsplit : (withTag c.ti ies).map asIe =
            ((withTag c.ti ies).map fun x => x.2).map fun bs => (c.ti, bs) := by
          rw [List.map_map]
          apply List.map_congr_left
          intro x hx
          have : tagOf x = c.ti := by simpa [withTag] using (List.mem_filter.mp hx).2
          simp only [asIe, Function.comp, ← this]; rfl
        rw [List.flatMap_cons, hsplit]
        refine .cons ?_ ?_ hi
        · simp only at k1 k2
          cases hk : c.kind <;> rw [hk] at k1 k2 <;> simp only [least, most, Kind.obeys] at k1 k2 ⊢ <;> omega
        · clear hi hx hsplit k1 k2 ih hl
          simp only at k3
          generalize (withTag c.ti ies).map (fun x => x.2) = l at k3
          induction k3 with
          | nil => exact .nil
          | cons a _ ih => exact .cons a ih
    have he := henc table s hob.1 (zip_of_get (P := fun c vs =>
      (least c.kind ≤ vs.length ∧ vs.length ≤ most c.kind) ∧
          All2 (Decodes c) ((withTag c.ti ies).map fun x => x.2) vs)
      (fun i c vs a b => ⟨hob.2 i c vs a b, hv i c vs a b⟩))
    have hdec := decodeMany_encodes hdt hsm he [] []
      (evs (table.flatMap fun c => (withTag c.ti ies).map asIe)) rfl rfl (by
        generalize (table.flatMap fun c => (withTag c.ti ies).map asIe) = l
        induction l with
        | nil => exact .nil
        | cons x l ih => exact .cons ⟨rfl, fun c _ v hd => hd⟩ ih)
    simp only [List.nil_append] at hdec
    -- filtered by tag, these are the IEs that the table knows
    have hfil : ∀ (cs : List (Coding A)), (cs.map fun c => c.ti).Nodup → ∀ t : TagInst,
        (cs.flatMap fun c => (withTag c.ti ies).map asIe).filter (fun x => x.1 = t) =
        if t ∈ cs.map (fun c => c.ti) then (withTag t ies).map asIe else [] := by
      intro cs
      induction cs with
      | nil => intro _ t; simp
      | cons c cs ih =>
        intro hn t
        simp only [List.map_cons, List.nodup_cons] at hn
        rw [List.flatMap_cons, List.filter_append, ih hn.2 t]
        have hsame : ((withTag c.ti ies).map asIe).filter (fun x => x.1 = t) =
            if c.ti = t then (withTag t ies).map asIe else [] := by
          by_cases hct : c.ti = t
          · rw [if_pos hct, hct, List.filter_eq_self]
            intro y hy
            obtain ⟨x, hx, rfl⟩ := List.mem_map.mp hy
            have : tagOf x = t := by simpa [withTag] using (List.mem_filter.mp hx).2
            have h3 : (asIe x).1 = t := this
            simpa using h3
          · rw [if_neg hct, List.filter_eq_nil_iff]
            intro y hy
            obtain ⟨x, hx, rfl⟩ := List.mem_map.mp hy
            have : tagOf x = c.ti := by simpa [withTag] using (List.mem_filter.mp hx).2
            have h3 : (asIe x).1 = c.ti := this
            simpa [h3] using hct
        rw [hsame]
        by_cases hct : c.ti = t
        · subst hct
          rw [if_pos rfl, if_neg hn.1, if_pos (by simp), List.append_nil]
        · rw [if_neg hct, List.nil_append]
          have h5 : (t ∈ (c :: cs).map fun c => c.ti) ↔ t ∈ cs.map fun c => c.ti := by
            rw [List.map_cons, List.mem_cons]
            exact ⟨fun h => h.resolve_left (fun h => hct h.symm), .inr⟩
          by_cases h6 : t ∈ cs.map fun c => c.ti
          · rw [if_pos h6, if_pos (h5.mpr h6)]
          · rw [if_neg h6, if_neg (fun h => h6 (h5.mp h))]
    have hknown : decodeMany table ((evs (ies.map asIe)).filter
        fun e => decide (e.1 ∈ table.map fun c => c.ti)) (emptyStruct table) = .ok s := by
      apply decodeMany_reorder _ _ _ hdec
      intro t
      have e1 : ∀ l : List (TagInst × List UInt8), (evs l).filter (fun e => decide (e.1 = t)) =
          evs (l.filter fun x => decide (x.1 = t)) := by
        intro l; unfold evs; rw [List.filter_map]; rfl
      rw [e1, hfil table hdt t, List.filter_filter]
      by_cases ht : t ∈ table.map fun c => c.ti
      · rw [if_pos ht, ← evs_withTag]
        apply List.filter_congr
        intro e _
        by_cases he : e.1 = t
        · simp only [he, decide_true, ht, Bool.and_self]
        · simp [he]
      · rw [if_neg ht]
        symm
        rw [show evs [] = [] from rfl, List.filter_eq_nil_iff]
        intro e _ hh
        simp only [Bool.and_eq_true, decide_eq_true_eq] at hh
        exact ht (hh.1 ▸ hh.2)
    rw [decodeMany_filter_known] at hknown
    · rw [h2, hl, hknown]
      simp only [Res.bind_ok']
      rw [checkMandatory_of table s 0 hob.1 (by have := hsm; unfold SmallTable at this; simp only [maxCodings]; omega) he.check]
      rfl
    · intro e _ hf c hc heq
      simp only [decide_eq_false_iff_not, List.mem_map, not_exists, not_and] at hf
      exact hf c hc heq

/-! A concrete table used to show that hypotheses can be met: raw octets, one mandatory, one
optional and one repeated nested IE. -/

/-- An IE whose value is kept as it is. -/
def raw (tag : Nat) (kind : Kind) : Coding (List UInt8) :=
  leafCoding { tag := tag } kind (fun p n => rdN p 0 n) (fun a b => b.put a)

theorem rdN_all (v rest : List UInt8) : rdN (v ++ rest) 0 v.length = .ok v := by
  simp [rdN]

theorem raw_local (tag kind) : LooksOnlyAtIe (raw tag kind) := by
  intro d hd v rest
  simp only [raw, leafCoding, Option.some.injEq] at hd
  subst hd
  have := rdN_all v []
  rw [List.append_nil] at this
  simp only [rdN_all, this]

theorem raw_decodes (tag kind) (v : List UInt8) : Decodes (raw tag kind) v (.leaf v) := by
  refine ⟨_, rfl, ?_⟩
  have := rdN_all v []
  rw [List.append_nil] at this
  simp only [this]; rfl

theorem raw_returns (tag kind) : ∃ d, (raw tag kind).dec = some d ∧
    ∀ p n, n ≤ p.length → ∃ v, d p n = .ok v := by
  refine ⟨_, rfl, ?_⟩
  intro p n hn
  simp only [rdN]
  rw [if_pos (by omega)]
  exact ⟨_, rfl⟩

def rawTable : List (Coding (List UInt8)) := [raw 1 .mand, raw 2 .opt, raw 3 (.multi 2 1)]

-- The hypotheses of the C08 theorems are met by `rawTable`, and both outcomes occur.
example : SmallTable rawTable ∧ DistinctTags rawTable ∧ (∀ c ∈ rawTable, LooksOnlyAtIe c) ∧
    (∀ c ∈ rawTable, most c.kind ≠ 0) ∧
    (∀ c ∈ rawTable, ∃ d, c.dec = some d ∧ ∀ p n, n ≤ p.length → ∃ v, d p n = .ok v) := by
  refine ⟨by simp [SmallTable, rawTable], by unfold DistinctTags; decide, ?_, by decide, ?_⟩
  · intro c hc
    simp [rawTable] at hc
    rcases hc with rfl | rfl | rfl <;> exact raw_local _ _
  · intro c hc
    simp [rawTable] at hc
    rcases hc with rfl | rfl | rfl <;> exact raw_returns _ _
example : gtlvsDecode (fresh t8l8v [3, 1, 7, 1, 2, 8, 9, 4, 0, 3, 0] 11) false (some rawTable) =
    .ok [[.leaf [8, 9]], [], [.leaf [7], .leaf []]] := rfl
example : gtlvsDecode (fresh t8l8v [1, 2, 8, 9] 4) false (some rawTable) = .err .EINVAL ∧
    count { tag := 3 } [(1, [8, 9])] < required { tag := 3 } rawTable := ⟨rfl, by decide⟩

/-! ## C09 -/

/-- C09: dropping all IEs whose tag the table does not define changes nothing: same return code,
same struct. -/
theorem C09_unknown_ignored (w : Width) (table : List (Coding A)) (ies : List Ie)
    (hfit : ∀ x ∈ ies, w.Fits x) (rest rest' : List UInt8)
    (hloc : ∀ c ∈ table, LooksOnlyAtIe c) (known : List Ie)
    (hk : known = ies.filter fun x => decide (tagOf x ∈ table.map fun c => c.ti)) :
    gtlvsDecode (fresh w.cfg (w.octets ies ++ rest) (w.octets ies).length) false (some table) =
    gtlvsDecode (fresh w.cfg (w.octets known ++ rest') (w.octets known).length) false (some table) := by
  obtain ⟨es, h1, h2⟩ := decodeUnordered_on_ies w table ies hfit rest
  obtain ⟨es', h1', h2'⟩ := decodeUnordered_on_ies w table known
    (fun x hx => hfit x (by rw [hk] at hx; exact (List.mem_filter.mp hx).1)) rest'
  rw [h2, h2', decodeMany_local hloc h1, decodeMany_local hloc h1']
  have : evs (known.map asIe) = (evs (ies.map asIe)).filter
      fun e => decide (e.1 ∈ table.map fun c => c.ti) := by
    subst hk
    unfold evs
    rw [List.map_map, List.map_map, List.filter_map]
    rfl
  rw [this, decodeMany_filter_known]
  intro e _ hf c hc heq
  simp only [decide_eq_false_iff_not, List.mem_map, not_exists, not_and] at hf
  exact hf c hc heq

-- an unknown IE (tag 200) between known ones
example : gtlvsDecode (fresh t8l8v [1, 0, 200, 2, 5, 6, 3, 0] 8) false (some rawTable) =
    gtlvsDecode (fresh t8l8v [1, 0, 3, 0] 4) false (some rawTable) := rfl

/-! ## C10 -/

/-- C10: rearranging the IEs while keeping the relative order of IEs with the same tag keeps a
successful outcome. -/
theorem C10_order_independent (w : Width) (table : List (Coding A)) (ies ies' : List Ie)
    (hfit : ∀ x ∈ ies, w.Fits x) (hfit' : ∀ x ∈ ies', w.Fits x) (rest rest' : List UInt8)
    (hloc : ∀ c ∈ table, LooksOnlyAtIe c)
    (hsame : ∀ t, withTag t ies = withTag t ies') (s : Struct A)
    (h : gtlvsDecode (fresh w.cfg (w.octets ies ++ rest) (w.octets ies).length) false (some table) = .ok s) :
    gtlvsDecode (fresh w.cfg (w.octets ies' ++ rest') (w.octets ies').length) false (some table) = .ok s := by
  obtain ⟨es, h1, h2⟩ := decodeUnordered_on_ies w table ies hfit rest
  obtain ⟨es', h1', h2'⟩ := decodeUnordered_on_ies w table ies' hfit' rest'
  rw [h2, decodeMany_local hloc h1, Res.bind_eq_ok_iff] at h
  obtain ⟨s1, h3, h4⟩ := h
  rw [h2', decodeMany_local hloc h1', decodeMany_reorder _ _ _ h3]
  · exact h4
  · intro t
    rw [evs_withTag, evs_withTag, hsame]

example : (∀ t, withTag t [(3, [7]), (1, [8]), (3, [9])] = withTag t [(1, [8]), (3, [7]), (3, [9])]) ∧
    gtlvsDecode (fresh t8l8v [3, 1, 7, 1, 1, 8, 3, 1, 9] 9) false (some rawTable) =
      .ok [[.leaf [8]], [], [.leaf [7], .leaf [9]]] := by
  constructor
  · intro t
    simp only [withTag, List.filter_cons, tagOf]
    by_cases h1 : (({ tag := 3 } : TagInst) = t)
    · subst h1; rfl
    · by_cases h2 : (({ tag := 1 } : TagInst) = t)
      · subst h2; rfl
      · simp [h1, h2]
  · rfl

/-! ## C11 -/

/-- C11: on any readable window, whatever it contains, unordered decoding never writes beyond an
array and never has other undefined behaviour, provided that the value decoders do not. -/
theorem C11_never_overflows (w : Width) (table : List (Coding A)) (mem : List UInt8) (len : Nat)
    (hw : len ≤ mem.length)
    (hdec : ∀ c ∈ table, ∀ d, c.dec = some d → ∀ p n, n ≤ p.length → d p n ≠ .ub) :
    gtlvsDecode (fresh w.cfg mem len) false (some table) ≠ .ub := by
  simp only [gtlvsDecode, Bool.false_eq_true, if_false]
  obtain ⟨l, junk, es, h1, h2, h3, h4, h5⟩ := decodeUnordered_eq (Width.lawful w) table (fresh w.cfg mem len) rfl hw
  rw [h5]
  have hn := decodeMany_no_ub es (evs_returns h4 (P := fun r => r ≠ .ub) hdec) (emptyStruct_ok table)
  cases hm : decodeMany table es (emptyStruct table) with
  | ok s =>
    simp only [Res.bind_ok']
    split
    · have hc := checkMandatory_returns table s 0
      cases hk : checkMandatory table s 0 <;> rw [hk] at hc <;> simp [Res.Returns] at hc ⊢
    · simp
  | ub => exact absurd hm hn
  | _ => simp

/-- The write beyond an array is visible in the model: it is undefined behaviour. -/
example : storeVal (.multi 2 0) [.leaf 1, .leaf 2] (.leaf 3) = Res.ub := rfl

/-- C11: a tag that occurs more often than the table has room for makes unordered decoding fail. -/
theorem C11_surplus_fails (w : Width) (table : List (Coding A)) (ies : List Ie)
    (hfit : ∀ x ∈ ies, w.Fits x) (rest : List UInt8)
    (t : TagInst) (hcap : capacity t table ≠ 0) (hsur : capacity t table < count t ies) (s : Struct A) :
    gtlvsDecode (fresh w.cfg (w.octets ies ++ rest) (w.octets ies).length) false (some table) ≠ .ok s := by
  intro h
  obtain ⟨es, h1, h2⟩ := decodeUnordered_on_ies w table ies hfit rest
  rw [h2, Res.bind_eq_ok_iff] at h
  obtain ⟨s1, h3, _⟩ := h
  obtain ⟨hok, hu⟩ := decodeMany_ok es (emptyStruct_ok table) h3
  have := hu t (by rwa [← capacity_eq])
  rw [usedBy_empty, Nat.zero_add, countTag_eq h1] at this
  have h5 := usedBy_le t table s1 hok.len hok.cap
  rw [← capacity_eq] at h5
  omega

/-- C11: and the error is -ENOTSUP, unless an earlier IE's value is faulty. -/
theorem C11_surplus_is_enotsup (w : Width) (table : List (Coding A)) (ies : List Ie)
    (hfit : ∀ x ∈ ies, w.Fits x) (rest : List UInt8)
    (hdec : ∀ c ∈ table, ∃ d, c.dec = some d ∧ ∀ p n, n ≤ p.length → ∃ v, d p n = .ok v)
    (t : TagInst) (hcap : capacity t table ≠ 0) (hsur : capacity t table < count t ies) :
    gtlvsDecode (fresh w.cfg (w.octets ies ++ rest) (w.octets ies).length) false (some table) =
      .err .ENOTSUP := by
  obtain ⟨es, h1, h2⟩ := decodeUnordered_on_ies w table ies hfit rest
  rcases decodeMany_enotsup (codings := table) es (by
    intro c hc e he _
    obtain ⟨d, hd, hv⟩ := hdec c hc
    obtain ⟨v, hv⟩ := hv _ _ (h1.2 e he)
    exact ⟨d, v, hd, hv⟩) (emptyStruct_ok table) with ⟨s1, h3⟩ | h3
  · exfalso
    obtain ⟨hok, hu⟩ := decodeMany_ok es (emptyStruct_ok table) h3
    have := hu t (by rwa [← capacity_eq])
    rw [usedBy_empty, Nat.zero_add, countTag_eq h1] at this
    have h5 := usedBy_le t table s1 hok.len hok.cap
    rw [← capacity_eq] at h5
    omega
  · rw [h2, h3]; rfl

example : gtlvsDecode (fresh t8l8v [3, 0, 3, 0, 1, 0, 3, 0] 8) false (some rawTable) = .err .ENOTSUP ∧
    capacity { tag := 3 } rawTable < count { tag := 3 } [(3, []), (3, []), (1, []), (3, [])] :=
  ⟨rfl, by decide⟩

end Verif.Props
