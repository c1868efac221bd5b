/-
C105: unordered decoding, exactly (src/libosmo-gtlv/gtlv_dec_enc.c:83-260); and the tables to which C104 and C105 apply.
-/
import Verif.PropsOrdAll
import Verif.AnyOrd

namespace Verif.Props
open Verif Spec

variable {A : Type}

theorem brokenAt_eq {w : Width} {ies : List Ie} {junk : List UInt8} {ti : TagInst} {n : Nat}
    (h : junkTi (Width.hdr w) w.cfg.tlMin junk ((((ies.map asIe).getLast?).map Prod.fst).getD { tag := 0 }) ti)
    (hd : junk.length < w.cfg.tlMin ∨ Width.dom w ti n) : ti = brokenAt (w.half junk) (ies.map asIe) := by
  unfold junkTi at h
  unfold brokenAt Width.half
  rw [Width.tlMin] at h hd
  by_cases hl : junk.length < w.tl
  · rw [if_pos hl] at h
    rw [if_pos hl, h]
    cases (ies.map asIe).getLast? <;> rfl
  · rw [if_neg hl] at h
    rw [if_neg hl]
    obtain ⟨m, hm⟩ := h
    rcases hd with hd | hd
    · exact absurd hd hl
    · obtain ⟨tl, _, _, hd', ht'⟩ := (Width.lawful w).load junk junk.length (by rw [Width.tlMin]; omega)
      rw [Width.tlMin] at ht'
      have e := ht'.symm.trans hm
      refine TagInst.ext' ?_ (Width.inst hd)
      rw [(hdr_numAt w ht' hd').1]
      cases w with
      | w8 =>
        have e1 : storeBE 1 tl.ti.tag = storeBE 1 ti.tag := (List.append_inj e (by simp)).1
        exact (storeBE_inj (n := 1) (by have := hd'.2.1; omega) (by have := hd.2.1; omega) e1).symm
      | w16 =>
        have e1 : storeBE 2 tl.ti.tag = storeBE 2 ti.tag := (List.append_inj e (by simp)).1
        exact (storeBE_inj (n := 2) (by have := hd'.2.1; omega) (by have := hd.2.1; omega) e1).symm

/-- C105: unordered decoding with any table (also with several entries for a tag) of up to 4096 entries, of IEs followed by
nothing or by octets that are no IE: success, error code, the decoded struct, and the reports. -/
theorem C105_unordered_exactly (w : Width) (table : List (RCoding A)) (hloc : ∀ c ∈ table, LooksOnlyAtIeR c)
    (hsm : table.length ≤ 4096) (ies : List Ie) (hfit : ∀ x ∈ ies, w.Fits x) (junk : List UInt8)
    (hj : junk = [] ∨ w.NoIe junk) (rest : List UInt8) :
    gtlvsDecodeR (fresh w.cfg (w.octets ies ++ junk ++ rest) (w.octets ies ++ junk).length) false (some table) =
      inAnyOrderR (decide (junk ≠ [])) (w.half junk) table (ies.map fun x => (tagOf x, x.2)) := by
  obtain ⟨e1, e2⟩ := Width.octets_eq w ies hfit
  have h := Width.lawful w
  have ha : (Load.start { cfg := w.cfg, mem := w.octets ies ++ junk ++ rest, srcLen := (w.octets ies ++ junk).length }).At w.cfg
      (tlvBytes (Width.hdr w) (ies.map asIe) ++ junk) := by
    rw [e1]
    refine ⟨rfl, by simp [Load.start], by simp [Load.pos, Load.start], ?_⟩
    simp only [Load.rest, Load.pos, Load.start, List.drop_zero]
    exact List.take_left' rfl
  have hlen := At_length_le h ha
  have hj' : junk = [] ∨ BadRest w.cfg (Width.hdr w) (Width.dom w) junk := hj.imp id badRest
  obtain ⟨es, ti, h1, h2, h3, h4⟩ := loopR_eq h table (ies.map asIe) junk e2 hj' _ ha
  simp only [gtlvsDecodeR, Bool.false_eq_true, if_false, fresh, decodeUnorderedR]
  rw [h4 _ _ (by simp only [Load.start] at hlen ⊢; omega),
    decodeManyR_spec hloc hsm (ies.map asIe) es [] _ h1 ((filled_empty table).congr (by simp))]
  unfold inAnyOrderR
  simp only [Rep.bind_assoc, Rep.bind_ok', addAll_empty]
  congr 1
  funext l
  by_cases hjj : junk = []
  · simp only [hjj, if_true, Rep.bind_ok', ne_eq, not_true_eq_false, decide_false, Bool.false_eq_true, if_false]
    rw [checkMandatoryR_spec _ _ _ _ (by simpa [maxCodings] using hsm)]
    cases firstLack table (assemble table.length l) <;> simp
  · obtain ⟨h5, n, h6⟩ := h3 hjj
    have := brokenAt_eq (n := n) h5 h6
    simp only [hjj, if_false, ne_eq, not_false_eq_true, decide_true, if_true, returnError, this]
    rfl

/-- C104 and C105: the tables to which they apply.  Nesting is possible to any depth. -/
theorem C105_sound {c : RCoding A} (h : Sound c) : LooksOnlyAtIeR c := by
  induction h with
  | leaf c hc => exact ⟨hc, fun _ _ => rfl⟩
  | nested ti kind w ordered inner _ hroom hsm ih =>
    have key : ∀ v rest : List UInt8,
        gtlvsDecodeR (fresh w.cfg (v ++ rest) v.length) ordered (some inner) =
        gtlvsDecodeR (fresh w.cfg v v.length) ordered (some inner) := by
      intro v rest
      obtain ⟨ies, junk, rfl, hfit, hj⟩ := C104_all_octets w v
      cases ordered with
      | true =>
        have e1 := C104_ordered_exactly w inner ih hroom ies hfit junk hj rest
        have e2 := C104_ordered_exactly w inner ih hroom ies hfit junk hj []
        rw [List.append_nil] at e2
        rw [e1, e2]
      | false =>
        have e1 := C105_unordered_exactly w inner ih hsm ies hfit junk hj rest
        have e2 := C105_unordered_exactly w inner ih hsm ies hfit junk hj []
        rw [List.append_nil] at e2
        rw [e1, e2]
    refine ⟨?_, fun v rest => congrArg Prod.snd (key v rest)⟩
    intro d hd v rest
    simp only [nestedRCoding, nestedCoding, Option.some.injEq] at hd
    subst hd
    have := congrArg Prod.fst (key v rest)
    rw [gtlvsDecodeR_fst, gtlvsDecodeR_fst] at this
    simp only [Option.map_some, fresh] at this
    simp only [unreported] at this ⊢
    rw [this]

/-! ### Examples -/

/-- Two entries for tag 1, one for tag 2 between them, and nested IEs with tag 3. -/
def exTable : List (RCoding (List UInt8)) :=
  [leafRCoding (raw 1 (.multi 2 0)), leafRCoding (raw 2 .mand), leafRCoding (raw 1 .opt),
   nestedRCoding { tag := 3 } (.multi 2 1) t8l8v true [leafRCoding (raw 1 .mand)]]

theorem exTable_sound : ∀ c ∈ exTable, Sound c := by
  intro c hc
  simp only [exTable, List.mem_cons, List.not_mem_nil, or_false] at hc
  rcases hc with rfl | rfl | rfl | rfl
  · exact .leaf _ (raw_local _ _)
  · exact .leaf _ (raw_local _ _)
  · exact .leaf _ (raw_local _ _)
  · refine .nested _ _ .w8 _ _ (fun c hc => ?_) (by decide) (by decide)
    rw [List.mem_singleton.1 hc]
    exact .leaf _ (raw_local _ _)

-- The hypotheses of C104 and C105 hold for this table.
example : (∀ c ∈ exTable, LooksOnlyAtIeR c) ∧ (∀ c ∈ exTable, most c.c.kind ≠ 0) ∧ exTable.length ≤ 4096 :=
  ⟨fun c hc => C105_sound (exTable_sound c hc), by decide, by decide⟩

/-- A result of which equality can be decided: the number of values of each member, and the reports. -/
def shape (x : Rep (Struct (List UInt8))) : Option (List Nat) × List Report :=
  (match x.1 with
    | .ok s => some (s.map List.length)
    | _ => none, x.2)

-- Three IEs with tag 1: two for the first entry, one for the third; the mandatory second entry is passed over in ordered
-- decoding, and missed in unordered decoding.
example : shape (inOrderR false none exTable false
      [({ tag := 1 }, []), ({ tag := 1 }, []), ({ tag := 1 }, []), ({ tag := 3 }, [1, 0])]) = (some [2, 0, 1, 1], []) ∧
    shape (inAnyOrderR false none exTable
      [({ tag := 1 }, []), ({ tag := 1 }, []), ({ tag := 1 }, []), ({ tag := 3 }, [1, 0])]) =
      (none, [{ ti := { tag := 2 }, rc := .EINVAL, text := .missing }]) := ⟨by decide +kernel, by decide +kernel⟩
-- A fourth one is too much; it is told how many there may be: in ordered decoding nothing, for what is left is ignored; in
-- unordered decoding 3, for both entries together.
example : shape (inOrderR false none exTable false
      [({ tag := 1 }, []), ({ tag := 1 }, []), ({ tag := 1 }, []), ({ tag := 1 }, []), ({ tag := 3 }, [1, 0])]) =
      (some [2, 0, 1, 1], []) ∧
    shape (inAnyOrderR false none exTable
      [({ tag := 1 }, []), ({ tag := 1 }, []), ({ tag := 1 }, []), ({ tag := 1 }, []), ({ tag := 3 }, [1, 0])]) =
      (none, [{ ti := { tag := 1 }, rc := .ENOTSUP, text := .surplus 3 }]) := ⟨by decide +kernel, by decide +kernel⟩
-- Within the nested IEs, the mandatory one is missing.
example : shape (inAnyOrderR false none exTable [({ tag := 2 }, []), ({ tag := 3 }, [9, 0])]) =
    (none, [{ ti := { tag := 1 }, rc := .ENOENT, text := .missing }, { ti := { tag := 3 }, rc := .ENOENT, text := .inside }]) := by
  decide +kernel
-- The IE at the end is cut short: told by its tag in unordered decoding, by that of the entry in ordered decoding; not at
-- all if it repeats the one before; and ignored if the table has ended.
example : Width.NoIe .w8 [3, 2, 8] ∧ Width.half .w8 [3, 2, 8] = some { tag := 3 } ∧ Width.NoIe .w8 [3] ∧
    Width.half .w8 [3] = none := ⟨⟨by decide, .inr (by decide)⟩, rfl, ⟨by decide, .inl (by decide)⟩, rfl⟩
example : shape (inAnyOrderR true (some { tag := 3 }) exTable [({ tag := 2 }, []), ({ tag := 3 }, [1, 0])]) =
      (none, [{ ti := { tag := 3 }, rc := .EBADMSG, text := .broken }]) ∧
    shape (inOrderR true (some { tag := 3 }) exTable false [({ tag := 1 }, []), ({ tag := 3 }, [1, 0])]) =
      (none, [{ ti := { tag := 2 }, rc := .EBADMSG, text := .broken' }]) ∧
    shape (inOrderR true (some { tag := 3 }) [leafRCoding (raw 3 (.multi 2 1))] false [({ tag := 3 }, [1, 0])]) = (none, []) ∧
    shape (inOrderR true (some { tag := 3 }) [leafRCoding (raw 3 .mand)] false [({ tag := 3 }, [1, 0])]) = (some [1], []) :=
  ⟨by decide +kernel, by decide +kernel, by decide +kernel, by decide +kernel⟩
-- The same by the decoder.
example : shape (gtlvsDecodeR (fresh t8l8v [1, 0, 1, 0, 1, 0, 3, 2, 1, 0] 10) true (some exTable)) = (some [2, 0, 1, 1], []) := by
  decide +kernel

end Verif.Props
