/-
C104: ordered decoding, exactly (src/libosmo-gtlv/gtlv_dec_enc.c:276-420).
-/
import Verif.PropsReport
import Verif.OrdAll

namespace Verif.Props
open Verif Spec

variable {A : Type}

theorem halfOf (w : Width) (junk : List UInt8) : HalfOf w.cfg junk (w.half junk) := by
  intro g ha
  have hlen : g.srcLen - g.pos = junk.length := by
    have := Load.rest_length ha.window
    rw [ha.rest] at this
    omega
  have hp := ha.pos_le
  have hcfg := ha.cfg
  have hw := ha.window
  have h := Width.lawful w
  have htl := Width.tlMin w
  unfold Width.half
  by_cases hs : junk.length < w.tl
  · rw [if_pos hs]
    simp only
    unfold peekTag
    rw [nextTlValid_eq, if_neg (by omega), hcfg, htl, hlen]
    by_cases h0 : junk.length = 0
    · exact ⟨.ENOENT, by simp [h0]⟩
    · exact ⟨.EBADMSG, by rw [if_pos ⟨h0, hs⟩]⟩
  · rw [if_neg hs]
    simp only
    have hpos : 0 < w.tl := by cases w <;> decide
    obtain ⟨tl, l1, l2, l3, l4⟩ := h.load (g.mem.drop g.pos) (g.srcLen - g.pos) (by rw [htl]; simp; omega)
    have hpk : peekTag g = .ok tl.ti := by
      unfold peekTag
      rw [nextTlValid_eq, if_neg (by omega), hcfg, htl, hlen, if_neg (by omega)]
      simp only
      rw [if_neg (by omega), ← hlen]
      simp [l1]
    have ht : junk.take w.tl = Width.hdr w tl.ti tl.len := by
      rw [← l4, htl, ← ha.rest]
      simp only [Load.rest, List.drop_take, List.take_take]
      congr 1
      omega
    rw [hpk, (hdr_numAt w ht l3).1]
    have hi : tl.ti.inst = none := by cases w <;> exact l3.1
    congr 1
    exact TagInst.ext' rfl hi

theorem badRest {w : Width} {junk : List UInt8} (hj : w.NoIe junk) : BadRest w.cfg (Width.hdr w) (Width.dom w) junk := by
  refine ⟨hj.1, ?_⟩
  rw [Width.tlMin]
  by_cases hs : junk.length < w.tl
  · exact .inl hs
  · rcases hj.2 with h1 | h1
    · exact .inl h1
    obtain ⟨tl, _, _, l3, l4⟩ := (Width.lawful w).load junk junk.length (by rw [Width.tlMin]; omega)
    rw [Width.tlMin] at l4
    rw [(hdr_numAt w l4 l3).2] at h1
    exact .inr ⟨tl.ti, tl.len, l3, l4, by omega, h1⟩

/-- C104: ordered decoding with any table (also with several entries for a tag), of IEs followed by nothing or by octets that
are no IE: success, error code, the decoded struct, and the reports. -/
theorem C104_ordered_exactly (w : Width) (table : List (RCoding A)) (hloc : ∀ c ∈ table, LooksOnlyAtIeR c)
    (hroom : ∀ c ∈ table, most c.c.kind ≠ 0) (ies : List Ie) (hfit : ∀ x ∈ ies, w.Fits x) (junk : List UInt8)
    (hj : junk = [] ∨ w.NoIe junk) (rest : List UInt8) :
    gtlvsDecodeR (fresh w.cfg (w.octets ies ++ junk ++ rest) (w.octets ies ++ junk).length) true (some table) =
      inOrderR (decide (junk ≠ [])) (w.half junk) table false (ies.map fun x => (tagOf x, x.2)) := by
  obtain ⟨e1, e2⟩ := Width.octets_eq w ies hfit
  simp only [gtlvsDecodeR, if_true, fresh, decodeOrderedR]
  have h := Width.lawful w
  have ha : (Load.start { cfg := w.cfg, mem := w.octets ies ++ junk ++ rest, srcLen := (w.octets ies ++ junk).length }).At w.cfg
      (tlvBytes (Width.hdr w) (ies.map asIe) ++ junk) := by
    rw [e1]
    refine ⟨rfl, by simp [Load.start], by simp [Load.pos, Load.start], ?_⟩
    simp only [Load.rest, Load.pos, Load.start, List.drop_zero]
    exact List.take_left' rfl
  have hlen := At_length_le h ha
  have hj' : junk = [] ∨ BadRest w.cfg (Width.hdr w) (Width.dom w) junk := hj.imp id badRest
  rw [(orderedR_spec h junk hj' _ (halfOf w junk) _).1 table [] _ (ies.map asIe)
    (fun c hc => ⟨hloc c hc, by have := hroom c hc; rw [most_cap] at this; omega⟩) e2 ha (by
      simp only [Load.start] at hlen ⊢
      omega)]
  simp only [List.reverse_nil, List.nil_append]
  rw [Rep.bind_pure]
  rfl

/-- C104: any octets are IEs followed by nothing or by octets that are no IE. -/
theorem C104_all_octets (w : Width) (o : List UInt8) :
    ∃ (ies : List Ie) (junk : List UInt8), o = w.octets ies ++ junk ∧ (∀ x ∈ ies, w.Fits x) ∧ (junk = [] ∨ w.NoIe junk) := by
  obtain ⟨l, junk, e, d, j⟩ := parse_total (Width.lawful w) _ o (Nat.le_refl _)
  obtain ⟨ies, rfl, hf⟩ := Width.unmap w l d
  refine ⟨ies, junk, by rw [← (Width.octets_eq w ies hf).1]; exact e, hf, j.imp id fun hb => ⟨hb.1, ?_⟩⟩
  rw [← Width.tlMin]
  rcases hb.2 with h1 | ⟨ti, n, h1, h2, h3, h4⟩
  · exact .inl h1
  · rw [Width.tlMin] at h2 h4 ⊢
    rw [(hdr_numAt w h2 h1).2]
    exact .inr h4

end Verif.Props
