/-
Property theorems C113: TL formats whose store_tl() moves the data of the msgb (gtlv.h:78-96).
-/
import Verif.PropsFormat
import Verif.Move

namespace Verif.Spec
open Verif

/-- The contract of a store_tl() that may move data (gtlv.h:78-96).
`reserve`: a TL with the length not known yet (0) is stored at the tail if there is room for the TL with the eventual length,
and is not longer than that.
`rewrite`: called for a TL that is in the msgb, followed by the value up to the tail, it replaces that TL, moves the value if the
sizes of the old and the new TL differ, and returns the size of the new TL - if there is room. -/
structure StoresMoving (c : MovingCfg) (tl : TagInst → Nat → List UInt8) (ok : TagInst → Nat → Prop) : Prop where
  reserve : ∀ ti len avail, ok ti len → (tl ti len).length ≤ avail →
    ∃ o, c.storeTl avail ti 0 = .ok o ∧ o.length ≤ (tl ti len).length
  rewrite : ∀ cap ti (before old value : List UInt8), ok ti value.length →
    ((∃ avail, c.storeTl avail ti 0 = .ok old) ∨ ∃ len, ok ti len ∧ old = tl ti len) →
    (before ++ tl ti value.length ++ value).length ≤ cap →
    c.rewriteTl ⟨cap, before ++ old ++ value⟩ before.length old.length ti value.length =
      .ok (⟨cap, before ++ tl ti value.length ++ value⟩, (tl ti value.length).length)

end Verif.Spec

namespace Verif.Props
open Verif Spec

variable {A : Type} {c : MovingCfg} {tl : TagInst → Nat → List UInt8} {ok : TagInst → Nat → Prop}

/-! ## C113 -/

/-- Updating the TL of the last IE. -/
theorem updateMv (h : StoresMoving c tl ok) (b : Msgb) (before old v : List UInt8) (ti : TagInst) (hd : ok ti v.length)
    (hold : (∃ avail, c.storeTl avail ti 0 = .ok old) ∨ ∃ len, ok ti len ∧ old = tl ti len)
    (hb : b.data = before ++ old ++ v) (hroom : (before ++ tl ti v.length ++ v).length ≤ b.cap) :
    putUpdateTlMv c { last := some (ti, before.length, before.length + old.length) } b =
      .ok ({ last := some (ti, before.length, before.length + (tl ti v.length).length) },
        { b with data := before ++ tl ti v.length ++ v }) := by
  obtain ⟨cap, data⟩ := b
  subst hb
  unfold putUpdateTlMv
  have e1 : before.length + old.length - before.length = old.length := by omega
  have e2 : (before ++ old ++ v).length - (before.length + old.length) = v.length := by simp; omega
  simp only [e1, e2, h.rewrite cap ti before old v hd hold hroom]

theorem reserveMv (h : StoresMoving c tl ok) (p : Put) (b : Msgb) (ti : TagInst) (len : Nat) (hd : ok ti len)
    (hroom : b.data.length + (tl ti len).length ≤ b.cap) :
    ∃ o, o.length ≤ (tl ti len).length ∧ (∃ avail, c.storeTl avail ti 0 = .ok o) ∧
      putTli c.toCfg p b ti 0 = .ok ({ last := some (ti, b.data.length, b.data.length + o.length) },
        { b with data := b.data ++ o }) := by
  obtain ⟨o, h1, h2⟩ := h.reserve ti len b.tailroom hd (by simp [Msgb.tailroom]; omega)
  exact ⟨o, h2, ⟨_, h1⟩, by simp [putTli, h1]⟩

theorem goMv (h : StoresMoving c tl ok) (ti : TagInst) (pieces : List (List UInt8)) :
    ∀ (b : Msgb) (before old v : List UInt8), (∀ n, n ≤ (v ++ pieces.flatten).length → ok ti n) →
    (∀ n, n ≤ (v ++ pieces.flatten).length → (tl ti n).length ≤ (tl ti (v ++ pieces.flatten).length).length) →
    ((∃ avail, c.storeTl avail ti 0 = .ok old) ∨ ∃ len, ok ti len ∧ old = tl ti len) →
    (pieces = [] → old = tl ti v.length) →
    old.length ≤ (tl ti (v ++ pieces.flatten).length).length →
    b.data = before ++ old ++ v →
    (before ++ tl ti (v ++ pieces.flatten).length ++ (v ++ pieces.flatten)).length ≤ b.cap →
    ∃ p', putTlvMv.go c pieces { last := some (ti, before.length, before.length + old.length) } b =
      .ok (p', { b with data := before ++ tl ti (v ++ pieces.flatten).length ++ (v ++ pieces.flatten) }) := by
  induction pieces with
  | nil =>
    intro b before old v _ _ _ hlast _ hb _
    refine ⟨{ last := some (ti, before.length, before.length + old.length) }, ?_⟩
    simp only [List.flatten_nil, List.append_nil, putTlvMv.go]
    rw [← hlast rfl, ← hb]
  | cons x pieces ih =>
    intro b before old v hd hmono hold _ hlen hb hroom
    simp only [List.flatten_cons, ← List.append_assoc] at hd hmono hlen hroom ⊢
    have hput : b.put x = .ok { b with data := before ++ old ++ (v ++ x) } := by
      unfold Msgb.put
      rw [hb]
      simp only [List.length_append] at hroom ⊢
      rw [if_pos (by simp only [List.length_append] at hlen; omega)]
      simp
    have hm := hmono (v ++ x).length (by simp)
    have hup := updateMv h { b with data := before ++ old ++ (v ++ x) } before old (v ++ x) ti
      (hd _ (by simp)) hold rfl (by simp only [List.length_append] at hroom hm ⊢; omega)
    obtain ⟨p', hp'⟩ := ih { b with data := before ++ tl ti (v ++ x).length ++ (v ++ x) } before (tl ti (v ++ x).length)
      (v ++ x) hd hmono (.inr ⟨_, hd _ (by simp), rfl⟩) (fun _ => rfl) hm rfl (by simpa using hroom)
    refine ⟨p', ?_⟩
    simp only [putTlvMv.go, hput, hup]
    rw [hp']
    simp

/-- C113: in a format whose store_tl() moves data as documented, an IE that is written with its length not known yet - the TL,
then the value in any number of pieces, with an update of the TL after each - becomes the TL for its eventual length, followed by
its value; nothing before it is changed.  (Hypotheses: the format can express the lengths on the way, and the TL does not get
shorter when the value gets longer.) -/
theorem C113_pieces (h : StoresMoving c tl ok) (p : Put) (b : Msgb) (ti : TagInst) (pieces : List (List UInt8))
    (hne : pieces ≠ []) (hd : ∀ n, n ≤ pieces.flatten.length → ok ti n)
    (hmono : ∀ n, n ≤ pieces.flatten.length → (tl ti n).length ≤ (tl ti pieces.flatten.length).length)
    (hroom : (b.data ++ tl ti pieces.flatten.length ++ pieces.flatten).length ≤ b.cap) :
    ∃ p', putTlvMv c p b ti pieces =
      .ok (p', { b with data := b.data ++ tl ti pieces.flatten.length ++ pieces.flatten }) := by
  obtain ⟨o, h1, h2, h3⟩ := reserveMv h p b ti pieces.flatten.length (hd _ (Nat.le_refl _))
    (by simp only [List.length_append] at hroom; omega)
  obtain ⟨p', hp'⟩ := goMv h ti pieces { b with data := b.data ++ o } b.data o [] (by simpa using hd) (by simpa using hmono)
    (.inl h2) (fun x => absurd x hne) (by simpa using h1) (by simp) (by simpa using hroom)
  refine ⟨p', ?_⟩
  simp only [putTlvMv, h3]
  simpa using hp'

/-- IEs one after the other, each written with its length not known yet (gtlv.c:226-240). -/
def putTlvsMv (c : MovingCfg) : Put → Msgb → List (TagInst × List UInt8) → Res (Put × Msgb)
  | p, b, [] => .ok (p, b)
  | p, b, (ti, v) :: rest =>
    match putTlvMv c p b ti [v] with
    | .ok (p, b) => putTlvsMv c p b rest
    | .err e => .err e
    | .abort => .abort
    | .ub => .ub
    | .diverge => .diverge

/-- C113: any sequence of IEs that the format can express is written as TL, value, TL, value, ..., and reading those octets back
yields the same sequence and then the end, whatever follows in memory. -/
theorem C113_put_then_load (hs : StoresMoving c tl ok) (hl : Loads c.toCfg tl ok) (ies : List (TagInst × List UInt8))
    (hx : Expressible ok ies) (p : Put) (b : Msgb) (hroom : b.data.length + (inFormat tl ies).length ≤ b.cap) :
    (∃ p', putTlvsMv c p b ies = .ok (p', { b with data := b.data ++ inFormat tl ies })) ∧
    ∀ rest fuel, ies.length < fuel →
      loadAllLoop fuel (fresh c.toCfg (inFormat tl ies ++ rest) (inFormat tl ies).length) [] = .ok ies := by
  constructor
  · induction ies generalizing p b with
    | nil => exact ⟨p, by simp [putTlvsMv, inFormat]⟩
    | cons x l ih =>
      obtain ⟨ti, v⟩ := x
      rw [inFormat_cons] at hroom ⊢
      simp only [List.length_append] at hroom
      have hd : ok ti v.length := hx (ti, v) (by simp)
      obtain ⟨o, h1, h2, h3⟩ := reserveMv hs p b ti v.length hd (by omega)
      have hput : Msgb.put { b with data := b.data ++ o } v = .ok { b with data := b.data ++ o ++ v } := by
        unfold Msgb.put
        exact if_pos (by simp; omega)
      have hup := updateMv hs { b with data := b.data ++ o ++ v } b.data o v ti hd (.inl h2) rfl
        (by simp only [List.length_append]; omega)
      obtain ⟨p', hp'⟩ := ih (fun y hy => hx y (by simp [hy]))
        { last := some (ti, b.data.length, b.data.length + (tl ti v.length).length) }
        { b with data := b.data ++ tl ti v.length ++ v } (by simp; omega)
      refine ⟨p', ?_⟩
      simp only [putTlvsMv, putTlvMv, h3, putTlvMv.go, hput, hup]
      rw [hp']
      simp
  · intro rest fuel hf
    have := Format.loadAllLoop_tlvs hl ies hx (fresh c.toCfg (inFormat tl ies ++ rest) (inFormat tl ies).length)
      (by rw [inFormat_eq]; exact fresh_at ..) [] fuel hf
    simpa using this

theorem encodeValsMv_eq (h : StoresMoving c tl ok) (k : Coding A) (vs : List (Val A)) :
    ∀ (bss : List (List UInt8)) (i : Nat) (p : Put) (b : Msgb),
    All2 (EncodesTo k) vs bss → (∀ bs ∈ bss, ok k.ti bs.length) →
    (∀ j, j < i + vs.length → k.kind.exceeds j = false) →
    b.data.length + (tlvBytes tl (bss.map fun bs => (k.ti, bs))).length ≤ b.cap →
    ∃ p', encodeValsMv c k vs i p b =
      .ok (p', { b with data := b.data ++ tlvBytes tl (bss.map fun bs => (k.ti, bs)) }) := by
  induction vs with
  | nil =>
    intro bss i p b hf _ _ _
    cases hf
    exact ⟨p, by simp [encodeValsMv, tlvBytes]⟩
  | cons v vs ih =>
    intro bss i p b hf hd hx hroom
    cases hf with
    | @cons _ bs _ bss hv hf =>
    obtain ⟨enc, he, ha⟩ := hv
    simp only [List.map_cons, tlvBytes, List.length_append] at hroom
    obtain ⟨o, hol, hav, hput⟩ := reserveMv h p b k.ti bs.length (hd bs (by simp)) (by omega)
    have henc := ha { b with data := b.data ++ o } (by simp; omega)
    have hupd := updateMv h { b with data := b.data ++ o ++ bs } b.data o bs k.ti (hd bs (by simp)) (.inl hav) rfl
      (by simp only [List.length_append]; omega)
    obtain ⟨p', hp'⟩ := ih bss (i + 1) { last := some (k.ti, b.data.length, b.data.length + (tl k.ti bs.length).length) }
      { b with data := b.data ++ tl k.ti bs.length ++ bs } hf
      (fun x hx => hd x (by simp [hx]))
      (fun j hj => hx j (by simp; omega))
      (by simp; omega)
    refine ⟨p', ?_⟩
    simp only [encodeValsMv, hput, ignoreErr]
    rw [hx i (by simp)]
    simp only [he, henc, hupd, Bool.false_eq_true, if_false]
    rw [hp']
    simp [tlvBytes]

theorem encodeTableMv_eq (h : StoresMoving c tl ok) {cs : List (Coding A)}
    {ss : Struct A} {l} (he : Encodes EncodesTo Kind.fits cs ss l) (hd : tlvsDom ok l) :
    ∀ (p : Put) (b : Msgb), b.data.length + (tlvBytes tl l).length ≤ b.cap →
    ∃ p', encodeTableMv c cs ss p b = .ok (p', { b with data := b.data ++ tlvBytes tl l }) := by
  induction he with
  | nil => intro p b _; exact ⟨p, by simp [encodeTableMv, tlvBytes]⟩
  | @cons k cs vs ss bss l h1 h2 _ ih =>
    intro p b hroom
    obtain ⟨m1, m2⟩ := membVals_ok h1
    rw [tlvBytes_append, List.length_append] at hroom
    have hdb : ∀ bs ∈ bss, ok k.ti bs.length := fun bs hbs => hd (k.ti, bs) (by simp [hbs])
    have hv : ∃ p', encodeValsMv c k vs 0 p b =
      .ok (p', { b with data := b.data ++ tlvBytes tl (bss.map fun bs => (k.ti, bs)) }) := by
      cases bss with
      | nil => cases h2; exact ⟨p, by simp [encodeValsMv, tlvBytes]⟩
      | cons bs bss => exact encodeValsMv_eq h k vs (bs :: bss) 0 p b h2 hdb m2 (by omega)
    obtain ⟨p1, hv⟩ := hv
    obtain ⟨p2, hp2⟩ := ih (fun x hx => hd x (by simp [hx])) p1
      { b with data := b.data ++ tlvBytes tl (bss.map fun bs => (k.ti, bs)) } (by simp; omega)
    refine ⟨p2, ?_⟩
    simp only [encodeTableMv, m1, hv, hp2, tlvBytes_append, List.append_assoc]

theorem roundTripMv (hs : StoresMoving c tl ok) (hl : Loads c.toCfg tl ok) (table : List (Coding A)) (s : Struct A)
    (hdt : DistinctTags table) (hob : Obeys table s) (hcod : AllExpressible ok table s) :
    ∃ ies : List (TagInst × List UInt8), Expressible ok ies ∧
      (∀ b : Msgb, b.data.length + (inFormat tl ies).length ≤ b.cap →
        gtlvsEncodeMv c s b (some table) = .ok { b with data := b.data ++ inFormat tl ies }) ∧
      ∀ rest ordered, (ordered = false → SmallTable table) →
        gtlvsDecode (fresh c.toCfg (inFormat tl ies ++ rest) (inFormat tl ies).length) ordered (some table) = .ok s := by
  obtain ⟨ies, h1, h2⟩ := zip_to_encodes_in ok table s hob.1 (zip_of_get (P := fun c vs =>
      (least c.kind ≤ vs.length ∧ vs.length ≤ most c.kind) ∧
      ∀ v ∈ vs, ∃ octets, ok c.ti octets.length ∧ Codec c v octets)
    (fun i c vs a b => ⟨hob.2 i c vs a b, hcod i c vs a b⟩))
  refine ⟨ies, h1, ?_, ?_⟩
  · intro b hroom
    rw [← inFormat_eq] at hroom ⊢
    obtain ⟨p', hp⟩ := encodeTableMv_eq hs (h2.mono (fun _ _ _ x => x.1) (fun _ _ x => x.fits)) h1 {} b hroom
    simp [gtlvsEncodeMv, hp, dropPut]
  · intro rest ordered hsm
    cases ordered with
    | false =>
      have := Format.decodeUnordered_encodes hl hdt (hsm rfl) h2 h1 rest
      rw [inFormat_eq] at this
      exact this
    | true =>
      have := Format.decodeOrdered_encodes hl hdt h2 h1 rest
      rw [inFormat_eq] at this
      exact this

/-- C113: structs are encoded in such a format - TLs grow while values and nested IEs are written -, and decoding the octets,
ordered or unordered, makes the same struct. -/
theorem C113_round_trip (hs : StoresMoving c tl ok) (hl : Loads c.toCfg tl ok) (table : List (Coding A)) (s : Struct A)
    (hdt : DistinctTags table) (hob : Obeys table s) (hcod : AllExpressible ok table s) :
    ∃ octets : List UInt8,
      (∀ b : Msgb, b.data.length + octets.length ≤ b.cap →
        gtlvsEncodeMv c s b (some table) = .ok { b with data := b.data ++ octets }) ∧
      (∀ rest, gtlvsDecode (fresh c.toCfg (octets ++ rest) octets.length) true (some table) = .ok s) ∧
      (SmallTable table →
        ∀ rest, gtlvsDecode (fresh c.toCfg (octets ++ rest) octets.length) false (some table) = .ok s) := by
  obtain ⟨ies, _, h2, h3⟩ := roundTripMv hs hl table s hdt hob hcod
  exact ⟨inFormat tl ies, h2, fun rest => h3 rest true (by simp), fun hsm rest => h3 rest false fun _ => hsm⟩

/-- C113: an entry with nested IEs in such a format is a codec, for every sub-struct that the round trip applies to.  So the
round trip applies to structs with nested IEs, at any depth: the TLs of all levels are moved and updated correctly. -/
theorem C113_nested_is_codec (hs : StoresMoving c tl ok) (hl : Loads c.toCfg tl ok) (ti : TagInst) (kind : Kind)
    (ordered : Bool) (inner : List (Coding A)) (s : Struct A) (hdt : DistinctTags inner) (hsm : SmallTable inner)
    (hob : Obeys inner s) (hcod : AllExpressible ok inner s) :
    ∃ octets, Codec (nestedCodingMv ti kind c ordered inner) (.node s) octets := by
  obtain ⟨ies, _, h2, h3⟩ := roundTripMv hs hl inner s hdt hob hcod
  refine ⟨inFormat tl ies, ⟨_, rfl, fun b hb => h2 b hb⟩, _, rfl, ?_⟩
  intro rest
  have := h3 rest ordered fun _ => hsm
  simp only [fresh] at this
  rw [this]; rfl

/-- C113: for a store_tl() that moves nothing, this is the model that the other properties are about. -/
theorem C113_still (c : Cfg) (p : Put) (b : Msgb) (table : Option (List (Coding A))) (s : Struct A) :
    putUpdateTlMv c.still p b = putUpdateTl c p b ∧ gtlvsEncodeMv c.still s b table = gtlvsEncode c s b table := by
  have hu : ∀ p b, putUpdateTlMv c.still p b = putUpdateTl c p b := by
    intro p b
    unfold putUpdateTlMv putUpdateTl
    rcases p.last with _ | ⟨ti, t, v⟩
    · rfl
    · simp only [Cfg.still]
      cases c.storeTl (v - t) ti (b.data.length - v) <;> rfl
  refine ⟨hu p b, ?_⟩
  have hv : ∀ (k : Coding A) vs i p b, encodeValsMv c.still k vs i p b = encodeVals c k vs i p b := by
    intro k vs
    induction vs with
    | nil => intro i p b; rfl
    | cons v vs ih =>
      intro i p b
      simp only [encodeValsMv, encodeVals, hu, ih]
      rfl
  have ht : ∀ (cs : List (Coding A)) ss p b, encodeTableMv c.still cs ss p b = encodeTable c cs ss p b := by
    intro cs
    induction cs with
    | nil => intro ss p b; rfl
    | cons k cs ih =>
      intro ss p b
      cases ss with
      | nil => rfl
      | cons s ss =>
        simp only [encodeTableMv, encodeTable, hv, ih]
        cases membVals k.kind s with
        | none => rfl
        | some vs =>
          simp only
          rcases encodeVals c k vs 0 p b with ⟨p', b'⟩ | ⟨e, p', b'⟩ | _ | _ | _ <;> rfl
  cases table with
  | none => rfl
  | some t => simp only [gtlvsEncodeMv, gtlvsEncode, ht]

/-- A store_tl() for the format of `C110_growing_tl` that moves the value by memmove(): the value behind the old TL, up to the
tail, is moved to where it has to be behind the new TL, and the tail of the msgb is adjusted. -/
def berMoving : MovingCfg :=
  { ber with
    rewriteTl := fun b at_ avail ti len =>
      if ti.tag > 255 then .error .EINVAL
      else if len > 255 then .error .EMSGSIZE
      else if at_ + (berTl ti len).length + (b.data.length - (at_ + avail)) > b.cap then .error .ENOSPC
      else .ok ({ b with data := b.data.take at_ ++ berTl ti len ++ b.data.drop (at_ + avail) }, (berTl ti len).length) }

/-- C113: the format for which `C110_growing_tl` shows that a store_tl() that does not move data cannot be updated, keeps the
contract with a store_tl() that does. -/
theorem C113_growing_tl : Loads berMoving.toCfg berTl berOk ∧ StoresMoving berMoving berTl berOk := by
  refine ⟨C110_growing_tl.1, ?_, ?_⟩
  · intro ti len avail hd hr
    obtain ⟨_, a, d⟩ := hd
    have h0 : (berTl ti 0).length ≤ (berTl ti len).length := by unfold berTl; split <;> split <;> simp_all
    refine ⟨berTl ti 0, ?_, h0⟩
    simp only [berMoving, ber]
    rw [if_neg (by omega), if_neg (by omega), if_neg (by omega)]
  · intro cap ti before old value hd _ hroom
    obtain ⟨_, a, d⟩ := hd
    simp only [List.length_append] at hroom
    simp only [berMoving]
    rw [if_neg (by omega), if_neg (by omega), if_neg (by simp only [List.length_append]; omega)]
    have e1 : (before ++ old ++ value).take before.length = before := by simp
    have e2 : (before ++ old ++ value).drop (before.length + old.length) = value := by
      rw [← List.length_append, List.drop_left]
    rw [e1, e2]

set_option maxRecDepth 100000 in
-- two pieces of 100 octets: the TL takes two octets at first, and three after the second update
example : berOk { tag := 3 } 200 ∧
    ((putTlvMv berMoving {} ⟨300, [7]⟩ { tag := 3 } [List.replicate 100 1, List.replicate 100 2]).bind
      fun r => .ok (r.2.data.take 5, r.2.data.length)) = .ok ([7, 3, 0x81, 200, 1], 204) := by
  refine ⟨⟨rfl, by decide, by simp⟩, rfl⟩

set_option maxRecDepth 100000 in
-- a struct with a nested IE of 131 octets, which holds an IE of 128 octets
example : gtlvsEncodeMv berMoving [[.node [[.leaf (List.replicate 128 9)]]], [.leaf [5]]] ⟨300, []⟩
      (some [nestedCodingMv { tag := 1 } .mand berMoving false [raw 2 .mand], raw 3 .opt]) =
    .ok ⟨300, [1, 0x81, 131, 2, 0x81, 128] ++ List.replicate 128 9 ++ [3, 1, 5]⟩ := by rfl

set_option maxRecDepth 100000 in
-- the same without moving: the TL is not updated (and no error is reported)
example : gtlvsEncode ber [[.leaf (List.replicate 128 9)]] ⟨300, []⟩ (some [raw 2 .mand]) =
    .ok ⟨300, [2, 0] ++ List.replicate 128 9⟩ := by rfl

end Verif.Props
