/-
Lemmas about error reporting: the reports of unordered decoding of PFCP IEs are those of the specification.
-/
import Verif.ReportBlame

namespace Verif
open Spec Props

/-! ### Octets that are no IE -/

theorem numAt_hdr {junk : List UInt8} {ti : TagInst} {n : Nat} (h : junk.take 4 = hdr16 ti n) (ht : ti.tag < 65536)
    (hn : n < 65536) : numAt junk 0 2 = ti.tag ∧ numAt junk 2 2 = n := by
  have e1 : (junk.drop 0).take 2 = (junk.take 4).take 2 := by rw [List.drop_zero, List.take_take]; rfl
  have e2 : (junk.drop 2).take 2 = (junk.take 4).drop 2 := by rw [List.drop_take]
  unfold numAt
  rw [e1, e2, h, hdr16]
  refine ⟨?_, ?_⟩
  · have : (storeBE 2 ti.tag ++ storeBE 2 n).take 2 = storeBE 2 ti.tag := by
      have := List.take_left (l₁ := storeBE 2 ti.tag) (l₂ := storeBE 2 n)
      rwa [storeBE_length] at this
    rw [this, loadBE_storeBE_of_lt (by omega)]
  · have : (storeBE 2 ti.tag ++ storeBE 2 n).drop 2 = storeBE 2 n := by
      have := List.drop_left (l₁ := storeBE 2 ti.tag) (l₂ := storeBE 2 n)
      rwa [storeBE_length] at this
    rw [this, loadBE_storeBE_of_lt (by omega)]

theorem noIe_iff (junk : List UInt8) : NoIe junk ↔ BadRest t16l16v hdr16 dom16 junk := by
  have h4 : t16l16v.tlMin = 4 := rfl
  unfold NoIe BadRest
  rw [h4]
  constructor
  · rintro ⟨h0, h | h⟩
    · exact ⟨h0, .inl h⟩
    · refine ⟨h0, ?_⟩
      by_cases hl : junk.length < 4
      · exact .inl hl
      · refine .inr ?_
        obtain ⟨tl, _, _, hd, ht⟩ := t16l16v_lawful.load junk junk.length (by rw [h4]; omega)
        have := numAt_hdr ht hd.2.1 hd.2.2
        exact ⟨tl.ti, tl.len, hd, ht, by omega, by rw [← this.2]; exact h⟩
  · rintro ⟨h0, h | ⟨ti, n, hd, ht, h1, h2⟩⟩
    · exact ⟨h0, .inl h⟩
    · refine ⟨h0, .inr ?_⟩
      rw [(numAt_hdr ht hd.2.1 hd.2.2).2]
      exact h2

theorem brokenTag_eq {ies : List Ie} {junk : List UInt8} {ti : TagInst} {n : Nat}
    (h : junkTi hdr16 4 junk ((((ies.map asIe).getLast?).map Prod.fst).getD { tag := 0 }) ti) (hd : junk.length < 4 ∨ dom16 ti n) :
    ti = { tag := brokenTag ies junk } := by
  unfold junkTi at h
  unfold brokenTag
  by_cases hl : junk.length < 4
  · rw [if_pos hl] at h
    rw [if_pos hl, h, List.getLast?_map]
    cases ies.getLast? <;> rfl
  · rw [if_neg hl] at h
    rw [if_neg hl]
    obtain ⟨m, hm⟩ := h
    rcases hd with hd | hd
    · exact absurd hd hl
    · have h4 : t16l16v.tlMin = 4 := rfl
      obtain ⟨tl, _, _, hd', ht'⟩ := t16l16v_lawful.load junk junk.length (by rw [h4]; omega)
      have e := ht'.symm.trans hm
      have e1 : storeBE 2 tl.ti.tag = storeBE 2 ti.tag := (List.append_inj e (by simp)).1
      have e2 := storeBE_inj (n := 2) (by have := hd'.2.1; omega) (by have := hd.2.1; omega) e1
      rw [(numAt_hdr ht' hd'.2.1 hd'.2.2).1, e2]
      exact TagInst.ext' rfl hd.1

/-! ### Tables and entries -/

theorem rcodings_entries (f : Fields) : f.rcodings = (entries f).map fun x => x.2.2.rcoding x.1 x.2.1 := by
  match f with
  | .nil => rfl
  | .cons t k ty f => simp only [Fields.rcodings, entries, List.map_cons, rcodings_entries f]

theorem rcoding_ti (ty : Ty) (tag : Nat) (kind : Kind) :
    (ty.rcoding tag kind).c.ti = { tag := tag } ∧ (ty.rcoding tag kind).c.kind = kind := by
  rw [Ty.rcoding_c]; exact Ty.coding_ti tag kind ty

/-- A table of IEs with distinct tags, as the decoder needs it. -/
structure Table (f : Fields) : Prop where
  wf : f.Wf
  small : f.tags.length ≤ 4096
  room : f.Room

theorem Table.facts {f : Fields} (h : Table f) :
    f.rcodings.length ≤ maxCodings ∧ ((unreported f.rcodings).map (·.ti)).Nodup ∧ ∀ c ∈ f.rcodings, c.c.kind.cap ≠ 0 := by
  refine ⟨?_, ?_, ?_⟩
  · have := congrArg List.length f.rcodings_plain
    rw [unreported, List.length_map, f.codings_length] at this
    rw [this]; exact h.small
  · rw [f.rcodings_plain]; exact h.wf.nodup'
  · intro c hc
    refine h.room.cap c.c ?_
    rw [← f.rcodings_plain]
    exact List.mem_map_of_mem hc

mutual
theorem entries_wf (f : Fields) (hw : f.Wf) (hr : f.Room) : ∀ x ∈ entries f, x.2.2.Wf ∧ x.2.2.Room := by
  match f with
  | .nil => simp [entries]
  | .cons t k ty f =>
    simp only [Fields.Wf] at hw
    simp only [Fields.Room] at hr
    intro x hx
    simp only [entries, List.mem_cons] at hx
    rcases hx with rfl | hx
    · exact ⟨hw.2.2.1, hr.2.1⟩
    · exact entries_wf f hw.2.2.2 hr.2.2 x hx
end

theorem Table.group {f : Fields} (h : Table f) {iei kind g} (hm : (iei, kind, Ty.group g) ∈ entries f) : Table g := by
  obtain ⟨h1, h2⟩ := entries_wf f h.wf h.room _ hm
  simp only [Ty.Wf] at h1
  simp only [Ty.Room] at h2
  exact ⟨h1.1, h1.2, h2⟩

/-- The entry for a tag. -/
theorem Table.unique {f : Fields} (h : Table f) {iei kind ty kind' ty'} (h1 : (iei, kind, ty) ∈ entries f)
    (h2 : (iei, kind', ty') ∈ entries f) : kind = kind' ∧ ty = ty' := by
  have hn := h.facts.2.1
  have e : (unreported f.rcodings).map (·.ti) = (entries f).map fun x => ({ tag := x.1 } : TagInst) := by
    rw [rcodings_entries, unreported, List.map_map, List.map_map]
    apply List.map_congr_left
    intro x _
    exact (rcoding_ti x.2.2 x.1 x.2.1).1
  rw [e] at hn
  obtain ⟨i, hi, h1⟩ := List.mem_iff_getElem.1 h1
  obtain ⟨j, hj, h2⟩ := List.mem_iff_getElem.1 h2
  have : i = j := by
    refine (List.nodup_iff_pairwise_ne.1 hn |> fun _ => ?_)
    exact (List.getElem_inj (h₀ := by simpa using hi) (h₁ := by simpa using hj) hn).1 (by simp [h1, h2])
  subst this
  rw [h1] at h2
  simp only [Prod.mk.injEq] at h2
  exact h2.2

/-! ### Values -/

/-- A value is decoded to what it means, whatever follows, if there is a zero octet. -/
theorem Ty.means_at (ty : Ty) (tag : Nat) (kind : Kind) (hw : ty.Wf) (hr : ty.Room) {d} (hd : (ty.coding tag kind).dec = some d)
    (v r : List UInt8) (hz : (0 : UInt8) ∈ r) (x : Val IeVal) : d (v ++ r) v.length = .ok x ↔ ValueMeans ty v x := by
  rw [← Ty.means ty tag kind hw hr v x, (Ty.localWhen ty tag kind).1 d hd v r [0] hz (by simp)]
  simp only [Decodes, Coding.padded, hd, Option.map_some, Option.some.injEq, exists_eq_left', List.take_length]

/-- The error code for a name. -/
theorem decName_err {o rest : List UInt8} {e : Errno} (h : decName (curAt o rest) = .err e) :
    e = if o.length < 1 ∨ 254 < o.length then .ERANGE else .EINVAL := by
  have hd : decName (curAt o rest) = if o.length < 1 ∨ 254 < o.length then .err .ERANGE
      else (apnToStr (o ++ rest) o.length).bind fun s => if 254 < s.length + 1 then .ub else .ok (cstr s) := rfl
  rw [hd] at h
  by_cases hr : o.length < 1 ∨ 254 < o.length
  · rw [if_pos hr] at h ⊢; cases h; rfl
  · rw [if_neg hr] at h ⊢
    rw [(apnToStr_append o.length o rest rfl).1] at h
    obtain ⟨ls, h1, h2⟩ := labels_cases _ o rfl
    rcases h2 with h2 | ⟨x, h2⟩ | ⟨c, x, h2, h3, h4⟩
    · have e : apnToStr o o.length = .ok (dotted ls) := by
        have := apnToStr_labels ls (fun l hl => ⟨(h1 l hl).1, by have := (h1 l hl).2; omega⟩) []
        rw [List.append_nil, ← h2] at this; exact this
      rw [e, Res.bind_ok'] at h
      split at h <;> cases h
    · have e : apnToStr o o.length = .ok (ls.flatMap fun l => l ++ [46]) := by
        have := apn_terminated ls h1 x
        rw [← h2] at this; exact this
      rw [e, Res.bind_ok'] at h
      split at h <;> cases h
    · have e : apnToStr o o.length = .err .EINVAL := by
        have := apn_overrun ls h1 c x h3 h4
        rw [← h2] at this; exact this
      rw [e] at h
      cases h; rfl

/-- The error code for a value. -/
theorem ieDec_err {k : IeKind} {o rest : List UInt8} (hz : (0 : UInt8) ∈ rest) {e : Errno}
    (h : ieDec k (o ++ rest) o.length = .err e) : e = valueError k o := by
  have bind_err : ∀ {α β} {r : Res α} {g : α → β}, (r.bind fun a => .ok (g a)) = .err e → r = .err e := by
    intro α β r g hr
    cases r <;> simp [Res.bind] at hr ⊢
    exact hr
  by_cases hn : k = .networkInst
  · subst hn
    have e1 : ieDec .networkInst (o ++ rest) o.length = (decName (curAt o rest)).bind fun s => .ok (.networkInst s) := rfl
    rw [e1] at h
    have h2 := decName_err (bind_err h)
    rw [h2, valueError]
    by_cases hr : o.length < 1 ∨ 254 < o.length
    · rw [if_pos hr, if_pos ⟨rfl, hr⟩]
    · rw [if_neg hr, if_neg (fun h => hr h.2), if_neg (fun h => nomatch h.1)]
  · by_cases hf : k = .nodeId ∧ o[0]? = some 2
    · obtain ⟨rfl, h2⟩ := hf
      cases o with
      | nil => simp at h2
      | cons c o =>
        simp only [List.getElem?_cons_zero, Option.some.injEq] at h2
        subst h2
        have e1 : ieDec .nodeId (2 :: o ++ rest) (2 :: o).length =
            (decName (curAt o rest)).bind fun s => .ok (.nodeId (.fqdn s)) := by
          have h1 := num1_cons 2 o rest
          show (decNodeId (curAt (2 :: o) rest)).bind _ = _
          unfold decNodeId
          rw [h1, Res.bind_ok']
          simp only [show (2 : UInt8).toNat = 2 from rfl]
          cases decName (curAt o rest) <;> rfl
        rw [e1] at h
        have h2 := decName_err (bind_err h)
        rw [h2, valueError]
        by_cases hr : o.length < 1 ∨ 254 < o.length
        · rw [if_pos hr, if_neg (fun h => nomatch h.1), if_pos ⟨rfl, rfl, by simp only [List.length_cons]; omega⟩]
        · rw [if_neg hr, if_neg (fun h => nomatch h.1), if_neg]
          rintro ⟨_, _, h⟩
          simp only [List.length_cons] at h
          omega
    · have hf' : k = .nodeId → o[0]? ≠ some 2 := fun a b => hf ⟨a, b⟩
      rw [C75_decoders k o rest hn hf' (fun _ => List.mem_append_right _ hz)] at h
      rw [valueError, if_neg (fun h => hn h.1), if_neg (fun h => hf ⟨h.1, h.2.1⟩)]
      cases hr : readIe k o with
      | none => rw [hr] at h; cases h; rfl
      | some w => rw [hr] at h; cases h

end Verif
