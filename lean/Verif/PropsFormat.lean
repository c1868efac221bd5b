/-
Property theorems C110 and C112: TL formats defined by the user (`struct osmo_gtlv_cfg`, gtlv.h:48-103).
-/
import Verif.PropsDecEnc2
import Verif.FormatLemmas
import Verif.RecordedGtlv
import Verif.RecordedDecEnc

namespace Verif.Props
open Verif Spec

variable {A : Type} {c : Cfg} {tl : TagInst → Nat → List UInt8} {ok : TagInst → Nat → Prop}

theorem inFormat_eq (l : List (TagInst × List UInt8)) : tlvBytes tl l = inFormat tl l := by
  induction l with
  | nil => rfl
  | cons x l ih =>
    obtain ⟨ti, v⟩ := x
    simp only [tlvBytes, ih, inFormat, List.flatMap_cons]

theorem inFormat_cons (x : TagInst × List UInt8) (l : List (TagInst × List UInt8)) :
    inFormat tl (x :: l) = tl x.1 x.2.length ++ x.2 ++ inFormat tl l := by
  simp [inFormat, List.flatMap_cons]

/-! ## C110 -/

theorem putTlvs_format (h : Stores c tl ok) (l : List (TagInst × List UInt8)) :
    ∀ (p : Put) (b : Msgb), Expressible ok l → b.data.length + (inFormat tl l).length ≤ b.cap →
    ∃ p', putTlvs c p b l = .ok (p', { b with data := b.data ++ inFormat tl l }) := by
  induction l with
  | nil => intro p b _ _; exact ⟨p, by simp [putTlvs, inFormat]⟩
  | cons x l ih =>
    intro p b hd hroom
    obtain ⟨ti, v⟩ := x
    rw [inFormat_cons] at hroom ⊢
    simp only [List.length_append] at hroom
    obtain ⟨o, hol, hput, hupd⟩ := Format.put_update h p b ti v (hd (ti, v) (by simp)) (by omega)
    obtain ⟨p', hp'⟩ := ih { last := some (ti, b.data.length, b.data.length + (tl ti v.length).length) }
      { b with data := b.data ++ (tl ti v.length ++ v) } (fun y hy => hd y (by simp [hy])) (by simp; omega)
    refine ⟨p', ?_⟩
    have hp : (Msgb.put { b with data := b.data ++ o } v) = .ok { b with data := b.data ++ o ++ v } := by
      unfold Msgb.put
      exact if_pos (by simp [hol]; omega)
    simp only [putTlvs, putTlv, hput, hp, hupd, hp']
    simp

/-- C110: in a format of the user's, whose store_tl() and load_tl() keep their contracts, any sequence of IEs (with or without
instance, in TLs of any sizes) that the format can express is written as TL, value, TL, value, ..., and reading those octets
back yields the same sequence and then the end, whatever follows in memory. -/
theorem C110_put_then_load (hs : Stores c tl ok) (hl : Loads c tl ok) (ies : List (TagInst × List UInt8))
    (hx : Expressible ok ies) (b : Msgb) (hroom : b.data.length + (inFormat tl ies).length ≤ b.cap) :
    (∃ p', putTlvs c {} b ies = .ok (p', { b with data := b.data ++ inFormat tl ies })) ∧
    ∀ rest fuel, ies.length < fuel →
      loadAllLoop fuel (fresh c (inFormat tl ies ++ rest) (inFormat tl ies).length) [] = .ok ies := by
  refine ⟨putTlvs_format hs ies {} b hx hroom, ?_⟩
  intro rest fuel hf
  have := Format.loadAllLoop_tlvs hl ies hx (fresh c (inFormat tl ies ++ rest) (inFormat tl ies).length)
    (by rw [inFormat_eq]; exact fresh_at ..) [] fuel hf
  simpa using this

/-- Writing IEs whose lengths are known: `osmo_gtlv_put_tli()` with the length, then the value. -/
def putKnown (c : Cfg) : Put → Msgb → List (TagInst × List UInt8) → Res (Put × Msgb)
  | p, b, [] => .ok (p, b)
  | p, b, (ti, v) :: rest =>
    match putTli c p b ti v.length with
    | .error e => .err e
    | .ok (p, b) =>
      match b.put v with
      | .ok b => putKnown c p b rest
      | .err e _ => .err e
      | .abort => .abort
      | .ub => .ub
      | .diverge => .diverge

/-- C110: the same for any format, also one where the size of the TL depends on the length, if the length is passed to
`osmo_gtlv_put_tli()` and not updated later. -/
theorem C110_known_length (hs : StoresKnown c tl ok) (hl : Loads c tl ok) (ies : List (TagInst × List UInt8))
    (hx : Expressible ok ies) (p : Put) (b : Msgb) (hroom : b.data.length + (inFormat tl ies).length ≤ b.cap) :
    (∃ p', putKnown c p b ies = .ok (p', { b with data := b.data ++ inFormat tl ies })) ∧
    ∀ rest fuel, ies.length < fuel →
      loadAllLoop fuel (fresh c (inFormat tl ies ++ rest) (inFormat tl ies).length) [] = .ok ies := by
  constructor
  · induction ies generalizing p b with
    | nil => exact ⟨p, by simp [putKnown, inFormat]⟩
    | cons x l ih =>
      obtain ⟨ti, v⟩ := x
      rw [inFormat_cons] at hroom ⊢
      simp only [List.length_append] at hroom
      have hd : ok ti v.length := hx (ti, v) (by simp)
      obtain ⟨p', hp'⟩ := ih (fun y hy => hx y (by simp [hy]))
        { last := some (ti, b.data.length, b.data.length + (tl ti v.length).length) }
        { b with data := b.data ++ (tl ti v.length ++ v) } (by simp; omega)
      refine ⟨p', ?_⟩
      have hput : putTli c p b ti v.length =
          .ok ({ last := some (ti, b.data.length, b.data.length + (tl ti v.length).length) },
            { b with data := b.data ++ tl ti v.length }) := by
        unfold putTli
        rw [hs ti v.length b.tailroom hd (by simp [Msgb.tailroom]; omega)]
      have hp : (Msgb.put { b with data := b.data ++ tl ti v.length } v) =
          .ok { b with data := b.data ++ tl ti v.length ++ v } := by
        unfold Msgb.put
        exact if_pos (by simp; omega)
      simp only [putKnown, hput, hp]
      rw [List.append_assoc, hp']
      simp
  · intro rest fuel hf
    have := Format.loadAllLoop_tlvs hl ies hx (fresh c (inFormat tl ies ++ rest) (inFormat tl ies).length)
      (by rw [inFormat_eq]; exact fresh_at ..) [] fuel hf
    simpa using this

/-- C110: searching IEs by tag and instance, from the start: the first with that tag and instance is found, and the loader is
behind it; without one, -ENOENT is returned and the loader is as before. -/
theorem C110_search (hl : Loads c tl ok) (ies : List (TagInst × List UInt8)) (hx : Expressible ok ies) (ti : TagInst)
    (rest : List UInt8) :
    (∃ pre v post g', ies = pre ++ (ti, v) :: post ∧ (∀ x ∈ pre, x.1 ≠ ti) ∧
      nextByTagInst (fresh c (inFormat tl ies ++ rest) (inFormat tl ies).length) ti = .ok g' ∧ g'.ti = ti ∧
      g'.valueBytes = v ∧ endOf g' = (inFormat tl (pre ++ [(ti, v)])).length) ∨
    ((∀ x ∈ ies, x.1 ≠ ti) ∧
      nextByTagInst (fresh c (inFormat tl ies ++ rest) (inFormat tl ies).length) ti =
        .err .ENOENT (fresh c (inFormat tl ies ++ rest) (inFormat tl ies).length)) := by
  have ha : (fresh c (inFormat tl ies ++ rest) (inFormat tl ies).length).At c (tlvBytes tl ies ++ []) := by
    rw [inFormat_eq, List.append_nil]; exact fresh_at ..
  have hlen : ies.length ≤ (inFormat tl ies).length := by
    rw [← inFormat_eq]; exact Format.tlvs_length_ge hl hx
  unfold nextByTagInst
  rcases Format.nextByTagLoop_at hl ti ies [] hx (.inl rfl) _ ((inFormat tl ies).length + 2) ha (by omega) with
    ⟨pre, v, post, g', e1, e2, e3, e4, e5, e6, e7⟩ | ⟨e1, _, e3⟩ | ⟨_, e2, _⟩
  · refine .inl ⟨pre, v, post, g', e1, e2, ?_, e5.ti, ?_, ?_⟩
    · simp only [fresh] at e3 ⊢
      rw [e3]
    · obtain ⟨t, ht⟩ := e5.mem
      unfold Load.valueMem at ht
      unfold Load.valueBytes
      cases hv : g'.val with
      | none => 
        rw [hv] at ht; simp only at ht ⊢
        have := (List.nil_eq_append_iff.1 ht).1
        exact this.symm
      | some o => rw [hv] at ht; simp only at ht ⊢; rw [ht, e5.len]; simp
    · have h1 := Load.rest_length e4.window
      rw [e4.rest] at h1
      have he : endOf g' = g'.pos := by unfold endOf Load.pos; cases g'.val <;> rfl
      have h2 := e4.pos_le
      have h3 : (inFormat tl ies).length = (inFormat tl (pre ++ [(ti, v)])).length + (inFormat tl post).length := by
        rw [e1]; simp [inFormat]; omega
      rw [he]
      rw [e7] at h1 h2
      simp only [List.append_nil, inFormat_eq, fresh] at h1 h2
      omega
  · refine .inr ⟨e1, ?_⟩
    simp only [fresh] at e3 ⊢
    rw [e3]
  · simp at e2

/-- C110: peeking at the first IE. -/
theorem C110_peek (hl : Loads c tl ok) (x : TagInst × List UInt8) (ies : List (TagInst × List UInt8))
    (hx : Expressible ok (x :: ies)) (rest : List UInt8) :
    peekTag (fresh c (inFormat tl (x :: ies) ++ rest) (inFormat tl (x :: ies)).length) = .ok x.1 := by
  refine Format.peekTag_at hl (v := x.2) (rest := inFormat tl ies) (hx x (by simp)) ?_
  rw [← inFormat_cons]
  exact fresh_at ..

/-! ### Formats -/

theorem loads_of_lawful {hdr dom} (h : c.Lawful hdr dom) : Loads c hdr dom where
  size ti len _ := by
    have h1 := h.hdr_len ti len
    have h2 := h.tlMin_pos
    exact ⟨fun e => by rw [e] at h1; simp at h1; omega, by omega⟩
  load ti len rest n hd h1 h2 := by
    obtain ⟨t, e1, e2, e3, e4⟩ := h.load (hdr ti len ++ rest) n (by simp [h.hdr_len])
    rw [← h.hdr_len ti len, List.take_left] at e4
    obtain ⟨a, b⟩ := h.inj _ _ _ _ hd e3 e4
    rw [e1, a, b, h.hdr_len, ← e2]

theorem stores_of_lawful {hdr dom} (h : c.Lawful hdr dom) (h0 : ∀ ti len, dom ti len → dom ti 0) : Stores c hdr dom where
  store ti len avail hd hr := h.store _ _ _ hd (by rw [h.hdr_len] at hr; exact hr)
  reserve ti len avail hd hr :=
    ⟨_, h.store _ _ _ (h0 _ _ hd) (by rw [h.hdr_len] at hr; exact hr), by rw [h.hdr_len, h.hdr_len]⟩

/-- C110: the two formats of the library keep the contracts. -/
theorem C110_library_formats : Loads t8l8v hdr8 dom8 ∧ Stores t8l8v hdr8 dom8 ∧ Loads t16l16v hdr16 dom16 ∧
    Stores t16l16v hdr16 dom16 :=
  ⟨loads_of_lawful t8l8v_lawful, stores_of_lawful t8l8v_lawful fun _ _ h => dom8_zero h,
   loads_of_lawful t16l16v_lawful, stores_of_lawful t16l16v_lawful fun _ _ h => dom16_zero h⟩

/-- The TLIV format of gtlv_test.c: tags 5, 7 and 9 have an instance. -/
def tlivTl (ti : TagInst) (len : Nat) : List UInt8 :=
  [octet ti.tag, octet len] ++ match ti.inst with | some i => [octet i] | none => []
def tlivOk (ti : TagInst) (len : Nat) : Prop :=
  ti.tag < 256 ∧ len < 256 ∧
    match ti.inst with
    | some i => i < 256 ∧ (ti.tag = 5 ∨ ti.tag = 7 ∨ ti.tag = 9)
    | none => ¬ (ti.tag = 5 ∨ ti.tag = 7 ∨ ti.tag = 9)

/-- The TLIV format of tliv_test.c: tag 1 has an instance, which L counts. -/
def tlivInTl (ti : TagInst) (len : Nat) : List UInt8 :=
  match ti.inst with
  | some i => [octet ti.tag, octet (len + 1), octet i]
  | none => [octet ti.tag, octet len]
def tlivInOk (ti : TagInst) (len : Nat) : Prop :=
  ti.tag < 256 ∧
    match ti.inst with
    | some i => i < 256 ∧ ti.tag = 1 ∧ len < 255
    | none => ti.tag ≠ 1 ∧ len < 256

/-- The format of gtlv_test.c with tags of one or two octets, and lengths of none (tag 1002: two octets), one or two (tag 123)
octets. -/
def txlxvTl (ti : TagInst) (len : Nat) : List UInt8 :=
  (if ti.tag < 128 then [octet ti.tag] else [octet (128 + ti.tag % 128), octet (ti.tag / 128)]) ++
  (if ti.tag = 1002 then [] else if ti.tag = 123 then [octet (len / 256), octet (len % 256)] else [octet len])
def txlxvOk (ti : TagInst) (len : Nat) : Prop :=
  ti.inst = none ∧ ti.tag < 32768 ∧
    if ti.tag = 1002 then len = 2 else if ti.tag = 123 then len < 65536 else len < 256

theorem octet_toNat {n : Nat} (h : n < 256) : (octet n).toNat = n := by
  simp only [octet, UInt8.toNat_ofNat']
  omega

theorem octet_eq {n k : Nat} (h : n < 256) (hk : k < 256) : octet n = UInt8.ofNat k ↔ n = k := by
  constructor
  · intro e
    have := congrArg UInt8.toNat e
    rw [octet_toNat h] at this
    simp only [UInt8.toNat_ofNat'] at this
    omega
  · rintro rfl; rfl

theorem storeBE_one {n : Nat} : storeBE 1 n = [octet n] := by simp [storeBE, octet]
theorem storeBE_two {n : Nat} : storeBE 2 n = [octet (n / 256), octet (n % 256)] := by
  have e : ∀ n : Nat, UInt8.ofNat (n % 256) = UInt8.ofNat n := by
    intro n; apply UInt8.toNat_inj.mp; simp
  simp [storeBE, octet, e]

/-- C110: the TLIV format of the library's own tests keeps the contracts. -/
theorem C110_tliv : Loads Recorded.tliv tlivTl tlivOk ∧ Stores Recorded.tliv tlivTl tlivOk := by
  constructor
  · constructor
    · intro ti len _
      simp [tlivTl, Recorded.tliv]
    · intro ti len rest n hd h1 h2
      obtain ⟨t, i⟩ := ti
      obtain ⟨a, b, d⟩ := hd
      simp only at a d
      have e5 := octet_eq a (k := 5) (by omega)
      have e7 := octet_eq a (k := 7) (by omega)
      have e9 := octet_eq a (k := 9) (by omega)
      have o5 : octet t = 5 ↔ t = 5 := e5
      have o7 : octet t = 7 ↔ t = 7 := e7
      have o9 : octet t = 9 ↔ t = 9 := e9
      cases i with
      | some i =>
        simp only at d
        simp only [tlivTl, List.length_append, List.length_cons, List.length_nil] at h1
        simp only [Recorded.tliv, Recorded.tlivLoad, tlivTl, List.cons_append, List.nil_append]
        simp [o5, o7, o9, d.2, octet_toNat, a, b, d.1, rd]
        omega
      | none =>
        simp only at d
        simp [Recorded.tliv, Recorded.tlivLoad, tlivTl, rd, o5, o7, o9, d, octet_toNat, a, b]
  · constructor
    · intro ti len avail hd hr
      obtain ⟨t, i⟩ := ti
      obtain ⟨a, b, d⟩ := hd
      simp only at a d
      cases i with
      | some i =>
        simp only [tlivTl, List.length_append, List.length_cons, List.length_nil] at hr d
        simp only [Recorded.tliv, Recorded.tlivStore, tlivTl, storeBE_one]
        rw [if_neg (by omega), if_neg (by omega), if_neg (by omega), if_pos d.2, if_neg (by omega), if_neg (by omega)]
        rfl
      | none =>
        simp only [tlivTl, List.length_append, List.length_cons, List.length_nil] at hr d
        simp only [Recorded.tliv, Recorded.tlivStore, tlivTl, storeBE_one]
        rw [if_neg (by omega), if_neg (by omega), if_neg (by omega), if_neg d]
        rfl
    · intro ti len avail hd hr
      obtain ⟨t, i⟩ := ti
      obtain ⟨a, b, d⟩ := hd
      simp only at a d
      cases i with
      | some i =>
        simp only [tlivTl, List.length_append, List.length_cons, List.length_nil] at hr d
        refine ⟨[octet t, octet 0] ++ [octet i], ?_, rfl⟩
        simp only [Recorded.tliv, Recorded.tlivStore, storeBE_one]
        rw [if_neg (by omega), if_neg (by omega), if_neg (by omega), if_pos d.2, if_neg (by omega), if_neg (by omega)]
        rfl
      | none =>
        simp only [tlivTl, List.length_append, List.length_cons, List.length_nil] at hr d
        refine ⟨[octet t, octet 0], ?_, rfl⟩
        simp only [Recorded.tliv, Recorded.tlivStore, storeBE_one]
        rw [if_neg (by omega), if_neg (by omega), if_neg (by omega), if_neg d]
        rfl

/-- C110: and the one where L counts the instance. -/
theorem C110_tliv_counted : Loads Recorded.tlivIn tlivInTl tlivInOk ∧ Stores Recorded.tlivIn tlivInTl tlivInOk := by
  constructor
  · constructor
    · intro ti len _
      unfold tlivInTl
      cases ti.inst <;> simp [Recorded.tlivIn]
    · intro ti len rest n hd h1 h2
      obtain ⟨t, i⟩ := ti
      obtain ⟨a, d⟩ := hd
      simp only at a d
      have o1 : octet t = 1 ↔ t = 1 := octet_eq a (k := 1) (by omega)
      cases i with
      | some i =>
        simp only at d
        obtain ⟨d1, rfl, d3⟩ := d
        have ol : ¬ octet (len + 1) = 0 := by
          intro e
          have := (octet_eq (n := len + 1) (k := 0) (by omega) (by omega)).1 e
          omega
        simp only [tlivInTl, List.length_cons, List.length_nil] at h1
        have hl : (octet (len + 1)).toNat - 1 = len := by rw [octet_toNat (by omega)]; omega
        simp [Recorded.tlivIn, Recorded.tlivInLoad, tlivInTl, rd, o1, ol, hl, octet_toNat, d1]
        omega
      | none =>
        simp only at d
        simp [Recorded.tlivIn, Recorded.tlivInLoad, tlivInTl, rd, o1, d.1, octet_toNat, a, d.2]
  · constructor
    · intro ti len avail hd hr
      obtain ⟨t, i⟩ := ti
      obtain ⟨a, d⟩ := hd
      simp only at a d
      cases i with
      | some i =>
        simp only [tlivInTl, List.length_cons, List.length_nil] at hr d
        simp only [Recorded.tlivIn, Recorded.tlivInStore, tlivInTl, storeBE_one]
        rw [if_neg (by omega), if_neg (by omega), if_neg (by omega), if_pos d.2.1, if_neg (by omega), if_neg (by omega)]
        rfl
      | none =>
        simp only [tlivInTl, List.length_cons, List.length_nil] at hr d
        simp only [Recorded.tlivIn, Recorded.tlivInStore, tlivInTl, storeBE_one]
        rw [if_neg (by omega), if_neg (by omega), if_neg (by omega), if_neg d.1]
        rfl
    · intro ti len avail hd hr
      obtain ⟨t, i⟩ := ti
      obtain ⟨a, d⟩ := hd
      simp only at a d
      cases i with
      | some i =>
        simp only [tlivInTl, List.length_cons, List.length_nil] at hr d
        refine ⟨[octet t, octet 1, octet i], ?_, rfl⟩
        simp only [Recorded.tlivIn, Recorded.tlivInStore, storeBE_one]
        rw [if_neg (by omega), if_neg (by omega), if_neg (by omega), if_pos d.2.1, if_neg (by omega), if_neg (by omega)]
        rfl
      | none =>
        simp only [tlivInTl, List.length_cons, List.length_nil] at hr d
        refine ⟨[octet t, octet 0], ?_, rfl⟩
        simp only [Recorded.tlivIn, Recorded.tlivInStore, storeBE_one]
        rw [if_neg (by omega), if_neg (by omega), if_neg (by omega), if_neg d.1]
        rfl

/-- C110: and the one with tags and lengths of different sizes. -/
theorem C110_txlxv : Loads Recorded.txlxv txlxvTl txlxvOk ∧ Stores Recorded.txlxv txlxvTl txlxvOk := by
  have htag : ∀ t : Nat, t < 32768 → 128 ≤ t → (octet (t / 128)).toNat * 128 + (octet (128 + t % 128)).toNat % 128 = t := by
    intro t h1 h2
    rw [octet_toNat (by omega), octet_toNat (by omega)]
    omega
  have hlen : ∀ n : Nat, n < 65536 → loadBE [octet (n / 256), octet (n % 256)] = n := by
    intro n hn
    simp only [loadBE, List.foldl_cons, List.foldl_nil]
    rw [octet_toNat (by omega), octet_toNat (by omega)]
    omega
  have hb : ∀ t : Nat, ¬ t < 128 → (octet (128 + t % 128)).toNat ≥ 128 := by
    intro t _
    rw [octet_toNat (by omega)]; omega
  constructor
  · constructor
    · intro ti len _
      have h1 : 1 ≤ (txlxvTl ti len).length := by
        unfold txlxvTl
        by_cases h : ti.tag < 128 <;> simp [h]
      exact ⟨List.length_pos_iff.1 h1, h1⟩
    · intro ti len rest n hd h1 h2
      obtain ⟨t, i⟩ := ti
      obtain ⟨rfl, a, d⟩ := hd
      simp only at a d
      by_cases ht : t < 128
      · have h0 : ¬ (octet t).toNat ≥ 128 := by rw [octet_toNat (by omega)]; omega
        by_cases h123 : t = 123
        · subst h123
          simp at d
          have hr : rdN (octet 123 :: octet (len / 256) :: octet (len % 256) :: rest) 1 2 =
              .ok [octet (len / 256), octet (len % 256)] := by
            simp [rdN]
          have hT : txlxvTl { tag := 123 } len = [octet 123, octet (len / 256), octet (len % 256)] := by
            simp [txlxvTl]
          rw [hT] at h1 h2 ⊢
          simp only [List.length_cons, List.length_nil] at h1
          simp only [Recorded.txlxv, Recorded.txlxvLoad, List.cons_append, List.nil_append, rd_zero_cons, Res.bind_ok, h0, if_false,
            octet_toNat (show 123 < 256 by omega)]
          rw [if_neg (by omega), if_pos trivial, if_neg (by omega), hr]
          simp only [Res.bind_ok, hlen len d, List.length_cons, List.length_nil]
          rw [if_neg (by omega)]
        · have h1002 : ¬ t = 1002 := by omega
          rw [if_neg h1002, if_neg h123] at d
          have hT : txlxvTl { tag := t } len = [octet t, octet len] := by
            simp [txlxvTl, ht, h123, h1002]
          rw [hT] at h1 h2 ⊢
          simp only [List.length_cons, List.length_nil] at h1
          simp only [Recorded.txlxv, Recorded.txlxvLoad, List.cons_append, List.nil_append, rd_zero_cons, rd_succ_cons, Res.bind_ok, h0,
            if_false, octet_toNat (show t < 256 by omega)]
          rw [if_neg h1002, if_neg h123, if_neg (by omega)]
          simp only [Res.bind_ok, octet_toNat d, List.length_cons, List.length_nil]
          try rw [if_neg (by omega)]
      · have h123 : ¬ t = 123 := by omega
        by_cases h1002 : t = 1002
        · subst h1002
          simp at d
          subst d
          have hT : txlxvTl { tag := 1002 } 2 = [octet (128 + 1002 % 128), octet (1002 / 128)] := by
            simp [txlxvTl]
          rw [hT] at h1 h2 ⊢
          simp only [List.length_cons, List.length_nil] at h1
          simp only [Recorded.txlxv, Recorded.txlxvLoad, List.cons_append, List.nil_append, rd_zero_cons, rd_succ_cons, Res.bind_ok,
            if_pos (hb 1002 ht)]
          rw [if_neg (by omega)]
          simp only [Res.bind_ok, htag 1002 a (by omega)]
          rfl
        · rw [if_neg h1002, if_neg h123] at d
          have hT : txlxvTl { tag := t } len = [octet (128 + t % 128), octet (t / 128), octet len] := by
            simp [txlxvTl, ht, h123, h1002]
          rw [hT] at h1 h2 ⊢
          simp only [List.length_cons, List.length_nil] at h1
          simp only [Recorded.txlxv, Recorded.txlxvLoad, List.cons_append, List.nil_append, rd_zero_cons, rd_succ_cons, Res.bind_ok,
            if_pos (hb t ht)]
          rw [if_neg (by omega)]
          simp only [Res.bind_ok, htag t a (by omega)]
          rw [if_neg h1002, if_neg h123, if_neg (by omega)]
          simp only [Res.bind_ok, octet_toNat d, List.length_cons, List.length_nil, rd_succ_cons, rd_zero_cons]
  · have key : ∀ (t len avail : Nat), (t ≠ 1002 → if t = 123 then len < 65536 else len < 256) →
        (txlxvTl { tag := t } len).length ≤ avail →
        Recorded.txlxvStore avail { tag := t } len = .ok (txlxvTl { tag := t } len) := by
      intro t len avail d hr
      simp only [Recorded.txlxvStore, txlxvTl] at hr ⊢
      by_cases ht : t < 128 <;> by_cases h123 : t = 123 <;> by_cases h1002 : t = 1002 <;>
        simp [ht, h123, h1002, storeBE_one, storeBE_two] at hr d ⊢ <;> try omega
      all_goals
        repeat rw [if_neg (by omega)]
    constructor
    · intro ti len avail hd hr
      obtain ⟨t, i⟩ := ti
      obtain ⟨rfl, a, d⟩ := hd
      simp only at a d
      exact key t len avail (fun h => by rw [if_neg h] at d; exact d) hr
    · intro ti len avail hd hr
      obtain ⟨t, i⟩ := ti
      obtain ⟨rfl, a, d⟩ := hd
      have hsz : (txlxvTl { tag := t } 0).length = (txlxvTl { tag := t } len).length := by
        unfold txlxvTl
        by_cases ht : t < 128 <;> by_cases h123 : t = 123 <;> by_cases h1002 : t = 1002 <;> simp [ht, h123, h1002]
      exact ⟨_, key t 0 avail (fun _ => by split <;> omega) (by rw [hsz]; exact hr), hsz⟩


/-- A format whose TL grows with the length, as in BER: the length in one octet below 128, else 0x81 and the length. -/
def berTl (ti : TagInst) (len : Nat) : List UInt8 :=
  octet ti.tag :: if len < 128 then [octet len] else [0x81, octet len]
def berOk (ti : TagInst) (len : Nat) : Prop := ti.inst = none ∧ ti.tag < 256 ∧ len < 256
def ber : Cfg where
  tlMin := 2
  loadTl p n := do
    let t ← rd p 0
    let l ← rd p 1
    if l.toNat < 128 then Res.ok { ti := { tag := t.toNat }, len := l.toNat, hdr := 2 }
    else if n < 3 then Res.err .EINVAL
    else do
      let l ← rd p 2
      Res.ok { ti := { tag := t.toNat }, len := l.toNat, hdr := 3 }
  storeTl avail ti len :=
    if ti.tag > 255 then .error .EINVAL
    else if len > 255 then .error .EMSGSIZE
    else if avail < (berTl ti len).length then .error .ENOSPC
    else .ok (berTl ti len)

/-- C110: the condition that the size of the TL does not depend on the length is needed.  There is a format that keeps the
contracts, so that IEs with known lengths are written and read back (C110_known_length); but writing a TL with the length
"not known yet" and updating it reports -ENOSPC for every value of 128 octets and more, in every buffer with enough room. -/
theorem C110_growing_tl : Loads ber berTl berOk ∧ StoresKnown ber berTl berOk ∧
    ∀ (p : Put) (b : Msgb) (ti : TagInst) (v : List UInt8), berOk ti v.length → 128 ≤ v.length →
      b.data.length + (berTl ti v.length ++ v).length ≤ b.cap → putTlv ber p b ti v = .err .ENOSPC := by
  refine ⟨⟨?_, ?_⟩, ?_, ?_⟩
  · intro ti len _
    unfold berTl
    split <;> simp [ber]
  · intro ti len rest n hd h1 h2
    obtain ⟨t, i⟩ := ti
    obtain ⟨rfl, a, d⟩ := hd
    simp only at a
    by_cases hl : len < 128
    · simp [ber, berTl, hl, octet_toNat a, octet_toNat d]
    · simp only [berTl, if_neg hl, List.length_cons, List.length_nil] at h1
      have hn : ¬ n < 3 := by omega
      simp [ber, berTl, hl, octet_toNat a, octet_toNat d, hn]
  · intro ti len avail hd hr
    obtain ⟨_, a, d⟩ := hd
    simp only [ber]
    rw [if_neg (by omega), if_neg (by omega), if_neg (by omega)]
  · intro p b ti v hd hl hroom
    obtain ⟨_, a, d⟩ := hd
    have h0 : berTl ti 0 = [octet ti.tag, octet 0] := by simp [berTl]
    have hv : berTl ti v.length = [octet ti.tag, 0x81, octet v.length] := by simp [berTl]; omega
    rw [hv] at hroom
    simp only [List.length_append, List.length_cons, List.length_nil] at hroom
    have e1 : putTli ber p b ti 0 = .ok ({ last := some (ti, b.data.length, b.data.length + 2) },
        { b with data := b.data ++ [octet ti.tag, octet 0] }) := by
      simp only [putTli, ber, h0, Msgb.tailroom]
      rw [if_neg (by omega), if_neg (by omega), if_neg (by simp; omega)]
      rfl
    have e2 : (Msgb.put { b with data := b.data ++ [octet ti.tag, octet 0] } v) =
        .ok { b with data := b.data ++ [octet ti.tag, octet 0] ++ v } := by
      unfold Msgb.put
      exact if_pos (by simp; omega)
    simp only [putTlv, e1, e2]
    simp only [putUpdateTl, ber]
    have hlen : (b.data ++ [octet ti.tag, octet 0] ++ v).length - (b.data.length + 2) = v.length := by
      simp; omega
    rw [hlen, hv, if_neg (by omega), if_neg (by omega), if_pos (by simp)]

-- three IEs in the TLIV format, two of them of the same tag with different instances, in a used buffer
def tlivIes : List (TagInst × List UInt8) :=
  [({ tag := 5, inst := some 1 }, [7, 8]), ({ tag := 5, inst := some 2 }, [9]), ({ tag := 4 }, [])]
example : Expressible tlivOk tlivIes ∧
    inFormat tlivTl tlivIes = [5, 2, 1, 7, 8, 5, 1, 2, 9, 4, 0] ∧
    ([9] : List UInt8).length + (inFormat tlivTl tlivIes).length ≤ 64 ∧
    (putTlvs Recorded.tliv {} ⟨64, [9]⟩ tlivIes).bind (fun r => .ok r.2.data) =
      .ok [9, 5, 2, 1, 7, 8, 5, 1, 2, 9, 4, 0] := by
  refine ⟨?_, rfl, by decide, rfl⟩
  intro x hx
  simp only [tlivIes, List.mem_cons, List.not_mem_nil, or_false] at hx
  rcases hx with rfl | rfl | rfl <;> simp [tlivOk]

-- TLs of one to three octets
example : Expressible txlxvOk [({ tag := 1002 }, [7, 8]), ({ tag := 123 }, []), ({ tag := 200 }, [1])] ∧
    inFormat txlxvTl [({ tag := 1002 }, [7, 8]), ({ tag := 123 }, []), ({ tag := 200 }, [1])] =
      [0xea, 7, 7, 8, 123, 0, 0, 0xc8, 1, 1, 1] := by
  refine ⟨?_, rfl⟩
  intro x hx
  simp only [List.mem_cons, List.not_mem_nil, or_false] at hx
  rcases hx with rfl | rfl | rfl <;> simp [txlxvOk]

set_option maxRecDepth 100000 in
-- a value of 130 octets that meets the hypotheses of C110_growing_tl
example : berOk { tag := 3 } (List.replicate 130 (0 : UInt8)).length ∧
    (putKnown ber {} ⟨200, []⟩ [({ tag := 3 }, List.replicate 130 0)]).bind (fun r => .ok (r.2.data.take 4)) =
      .ok [3, 0x81, 130, 0] ∧
    (putTlv ber {} ⟨200, []⟩ { tag := 3 } (List.replicate 130 0)).bind (fun r => .ok r.2.data) = .err .ENOSPC := by
  refine ⟨⟨rfl, by decide, by simp⟩, rfl, rfl⟩

/-! ## C112 -/

theorem zip_to_encodes_in (ok : TagInst → Nat → Prop) (cs : List (Coding A)) : ∀ (ss : Struct A), ss.length = cs.length →
    (∀ x ∈ cs.zip ss, (least x.1.kind ≤ x.2.length ∧ x.2.length ≤ most x.1.kind) ∧
      ∀ v ∈ x.2, ∃ octets, ok x.1.ti octets.length ∧ Codec x.1 v octets) →
    ∃ ies : List (TagInst × List UInt8), Expressible ok ies ∧ Encodes Codes Kind.obeys cs ss ies := by
  induction cs with
  | nil =>
    intro ss hl _
    cases ss with
    | nil => exact ⟨[], by simp [Expressible], .nil⟩
    | cons => simp at hl
  | cons c cs ih =>
    intro ss hl hx
    cases ss with
    | nil => simp at hl
    | cons vs ss =>
    obtain ⟨ies, h1, h2⟩ := ih ss (by simpa using hl) (fun x h => hx x (by simp [h]))
    obtain ⟨⟨k1, k2⟩, k3⟩ := hx (c, vs) (by simp)
    simp only at k1 k2 k3
    have hvs : ∃ l : List (List UInt8), (∀ x ∈ l, ok c.ti x.length) ∧ All2 (Codes c) vs l := by
      clear hx k1 k2 h2 hl
      induction vs with
      | nil => exact ⟨[], by simp, .nil⟩
      | cons v vs ihv =>
        obtain ⟨l, a, b⟩ := ihv (fun v hv => k3 v (by simp [hv]))
        obtain ⟨o, e2, e3⟩ := k3 v (by simp)
        refine ⟨o :: l, ?_, .cons e3 b⟩
        intro x hx
        rcases List.mem_cons.mp hx with rfl | hx
        · exact e2
        · exact a x hx
    obtain ⟨l, a, b⟩ := hvs
    refine ⟨l.map (fun bs => (c.ti, bs)) ++ ies, ?_, ?_⟩
    · intro x hx
      rcases List.mem_append.mp hx with hx | hx
      · obtain ⟨y, hy, rfl⟩ := List.mem_map.mp hx
        exact a y hy
      · exact h1 x hx
    · refine .cons ?_ b h2
      cases hk : c.kind <;> rw [hk] at k1 k2 <;> simp only [least, most, Kind.obeys] at k1 k2 ⊢ <;> omega

theorem roundTrip_in (hs : Stores c tl ok) (hl : Loads c tl ok) (table : List (Coding A)) (s : Struct A)
    (hdt : DistinctTags table) (hob : Obeys table s) (hcod : AllExpressible ok table s) :
    ∃ ies : List (TagInst × List UInt8), Expressible ok ies ∧
      (∀ b : Msgb, b.data.length + (inFormat tl ies).length ≤ b.cap →
        gtlvsEncode c s b (some table) = .ok { b with data := b.data ++ inFormat tl ies }) ∧
      ∀ rest ordered, (ordered = false → SmallTable table) →
        gtlvsDecode (fresh c (inFormat tl ies ++ rest) (inFormat tl ies).length) ordered (some table) = .ok s := by
  obtain ⟨ies, h1, h2⟩ := zip_to_encodes_in ok table s hob.1 (zip_of_get (P := fun c vs =>
      (least c.kind ≤ vs.length ∧ vs.length ≤ most c.kind) ∧
      ∀ v ∈ vs, ∃ octets, ok c.ti octets.length ∧ Codec c v octets)
    (fun i c vs a b => ⟨hob.2 i c vs a b, hcod i c vs a b⟩))
  refine ⟨ies, h1, ?_, ?_⟩
  · have := Format.gtlvsEncode_eq hs (h2.mono (fun _ _ _ x => x.1) (fun _ _ x => x.fits)) h1
    rw [inFormat_eq] at this
    exact this
  · intro rest ordered hsm
    cases ordered with
    | false =>
      have := Format.decodeUnordered_encodes hl hdt (hsm rfl) h2 h1 rest
      rw [inFormat_eq] at this
      exact this
    | true =>
      have := Format.decodeOrdered_encodes hl hdt h2 h1 rest
      rw [inFormat_eq] at this
      exact this

/-- C112: a struct that obeys a table without repeated tags and instances, and whose values have codecs, is encoded in a
format of the user's as some octets (in any msgb with room for them), from which decoding, ordered or unordered, makes the
same struct, whatever follows in memory. -/
theorem C112_round_trip (hs : Stores c tl ok) (hl : Loads c tl ok) (table : List (Coding A)) (s : Struct A)
    (hdt : DistinctTags table) (hob : Obeys table s) (hcod : AllExpressible ok table s) :
    ∃ octets : List UInt8,
      (∀ b : Msgb, b.data.length + octets.length ≤ b.cap →
        gtlvsEncode c s b (some table) = .ok { b with data := b.data ++ octets }) ∧
      (∀ rest, gtlvsDecode (fresh c (octets ++ rest) octets.length) true (some table) = .ok s) ∧
      (SmallTable table → ∀ rest, gtlvsDecode (fresh c (octets ++ rest) octets.length) false (some table) = .ok s) := by
  obtain ⟨ies, _, h2, h3⟩ := roundTrip_in hs hl table s hdt hob hcod
  exact ⟨inFormat tl ies, h2, fun rest => h3 rest true (by simp), fun hsm rest => h3 rest false fun _ => hsm⟩

/-- C112: an entry with nested IEs is a codec, for every sub-struct that the round trip applies to.  So the round trip applies
to structs with nested IEs, at any depth. -/
theorem C112_nested_is_codec (hs : Stores c tl ok) (hl : Loads c tl ok) (ti : TagInst) (kind : Kind) (ordered : Bool)
    (inner : List (Coding A)) (s : Struct A) (hdt : DistinctTags inner) (hsm : SmallTable inner) (hob : Obeys inner s)
    (hcod : AllExpressible ok inner s) :
    ∃ octets, Codec (nestedCoding ti kind c ordered inner) (.node s) octets := by
  obtain ⟨ies, _, h2, h3⟩ := roundTrip_in hs hl inner s hdt hob hcod
  refine ⟨inFormat tl ies, ⟨_, rfl, fun b hb => h2 b hb⟩, _, rfl, ?_⟩
  intro rest
  have := h3 rest ordered fun _ => hsm
  simp only [fresh] at this
  rw [this]; rfl

/-- C112: what unordered decoding makes of IEs, or which error it reports, does not depend on the format that they come in:
two formats that can express the IEs give the same result. -/
theorem C112_format_independent {c₁ c₂ : Cfg} {tl₁ tl₂ : TagInst → Nat → List UInt8} {ok₁ ok₂ : TagInst → Nat → Prop}
    (h₁ : Loads c₁ tl₁ ok₁) (h₂ : Loads c₂ tl₂ ok₂) (table : List (Coding A)) (hloc : ∀ c ∈ table, LooksOnlyAtIe c)
    (ies : List (TagInst × List UInt8)) (hx₁ : Expressible ok₁ ies) (hx₂ : Expressible ok₂ ies) (rest₁ rest₂ : List UInt8) :
    gtlvsDecode (fresh c₁ (inFormat tl₁ ies ++ rest₁) (inFormat tl₁ ies).length) false (some table) =
    gtlvsDecode (fresh c₂ (inFormat tl₂ ies ++ rest₂) (inFormat tl₂ ies).length) false (some table) := by
  obtain ⟨e₁, a₁, _, b₁⟩ := Format.decodeUnordered_of_tlvs h₁ table ies hx₁ rest₁
  obtain ⟨e₂, a₂, _, b₂⟩ := Format.decodeUnordered_of_tlvs h₂ table ies hx₂ rest₂
  rw [decodeMany_local hloc a₁, inFormat_eq] at b₁
  rw [decodeMany_local hloc a₂, inFormat_eq] at b₂
  exact b₁.trans b₂.symm

/-- C112: ordered decoding, for a table without repeated tags and instances: what `Spec.inOrder` says, in any format. -/
theorem C112_ordered (hl : Loads c tl ok) (table : List (Coding A)) (hdt : DistinctTags table)
    (hloc : ∀ c ∈ table, LooksOnlyAtIe c) (ies : List (TagInst × List UInt8)) (hx : Expressible ok ies) (rest : List UInt8) :
    gtlvsDecode (fresh c (inFormat tl ies ++ rest) (inFormat tl ies).length) true (some table) = inOrder table ies := by
  have := Format.decodeOrdered_spec hl hdt hloc hx rest
  rw [inFormat_eq] at this
  exact this

-- a struct with a mandatory and an optional IE of the same tag, told apart by their instances, in the TLIV formats
def instTable : List (Coding (List UInt8)) :=
  [{ raw 5 .mand with ti := { tag := 5, inst := some 1 } }, { raw 5 .opt with ti := { tag := 5, inst := some 2 } }]
def instStruct : Struct (List UInt8) := [[.leaf [7, 8]], [.leaf [9]]]

example : DistinctTags instTable ∧ SmallTable instTable ∧ Obeys instTable instStruct ∧
    AllExpressible tlivOk instTable instStruct ∧ (∀ c ∈ instTable, LooksOnlyAtIe c) := by
  refine ⟨by unfold DistinctTags; decide, by unfold SmallTable; decide, ?_, ?_, ?_⟩
  · refine ⟨rfl, ?_⟩
    intro i c vs h1 h2
    match i with
    | 0 => cases h1; cases h2; decide
    | 1 => cases h1; cases h2; decide
    | n + 2 => simp [instTable] at h1
  · intro i c vs h1 h2 v hv
    match i with
    | 0 =>
      cases h1; cases h2
      simp only [List.mem_cons, List.not_mem_nil, or_false] at hv
      subst hv
      exact ⟨[7, 8], by simp [tlivOk], raw_codec 5 .mand [7, 8]⟩
    | 1 =>
      cases h1; cases h2
      simp only [List.mem_cons, List.not_mem_nil, or_false] at hv
      subst hv
      exact ⟨[9], by simp [tlivOk], raw_codec 5 .opt [9]⟩
    | n + 2 => simp [instTable] at h1
  · intro c hc
    simp only [instTable, List.mem_cons, List.not_mem_nil, or_false] at hc
    rcases hc with rfl | rfl
    · exact raw_local 5 .mand
    · exact raw_local 5 .opt

example : gtlvsEncode Recorded.tliv instStruct ⟨64, []⟩ (some instTable) = .ok ⟨64, [5, 2, 1, 7, 8, 5, 1, 2, 9]⟩ ∧
    gtlvsDecode (fresh Recorded.tliv [5, 1, 2, 9, 5, 2, 1, 7, 8] 9) false (some instTable) = .ok instStruct ∧
    gtlvsDecode (fresh Recorded.tliv [5, 1, 2, 9, 5, 2, 1, 7, 8] 9) true (some instTable) = .ok [[.leaf [7, 8]], []] ∧
    inOrder instTable [({ tag := 5, inst := some 2 }, [9]), ({ tag := 5, inst := some 1 }, [7, 8])] =
      .ok [[.leaf [7, 8]], []] := ⟨rfl, rfl, rfl, rfl⟩

-- the same IEs in two formats that can express them
example : Expressible dom8 [({ tag := 4 }, [1, 2])] ∧ Expressible txlxvOk [({ tag := 4 }, [1, 2])] := by
  constructor <;> intro x hx <;> simp only [List.mem_cons, List.not_mem_nil, or_false] at hx <;> subst hx <;>
    simp [dom8, txlxvOk]

end Verif.Props
