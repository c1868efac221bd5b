/-
More exact versions of claims that are false as stated: C68, C69, C74.
-/
import Verif.PropsSize
import Verif.PropsStrs

namespace Verif.Spec
open Verif

/-- The text of a message up to its IEs. -/
def headText (m : PMsg) : Text :=
  lit "PFCPv" ++ dec m.h.version ++ lit " " ++ valueStr messageTypeStrs m.h.type ++ lit " hdr={seq=" ++ dec m.h.seq ++
    textIf m.h.prioPresent (lit " prio=" ++ dec m.h.prio) ++ textIf m.h.seidPresent (lit " SEID=0x" ++ hex m.h.seid) ++
    lit "} ies={"

end Verif.Spec

namespace Verif.Props
open Verif Spec

/-- C74, exactly: what is sent for a message is that message if and only if it is not longer than the buffer of 2048 octets. -/
theorem C74_exactly {ep : Ep} (h : Reached ep) {id n1 t1} {m : PMsg} {f : Fields}
    (hp : Event.passed id n1 t1 m ∈ ep.log) (hm : m.encoded = none) (hf : message m.h.type = some f)
    (hg : GoodHdr m.h) (hs : GoodStruct f m.ies) :
    ∀ x ∈ transmissions id ep.log,
      x.2 = msgOctets false m.h (structOctets f m.ies) ↔ (msgOctets false m.h (structOctets f m.ies)).length ≤ 2048 := by
  intro x hx
  constructor
  · intro he
    obtain ⟨-, x2⟩ := (C46_bounded_identical h hp).2.1 x hx
    unfold PMsg.encode at x2
    rw [hm] at x2
    dsimp only at x2
    rw [← he]
    cases hb : msgEncode { b := ⟨allocSize, []⟩ } m.h m.ies with
    | ok buf =>
      rw [hb] at x2
      simp only [Out.ok.injEq] at x2
      rw [← x2]
      exact msgEncode_le hg hb
    | _ => rw [hb] at x2; cases x2
  · intro hl
    rcases (C74_sent_faithfully_partial h hp hm hf hg hs x hx).2 with he | ⟨hlong, -⟩
    · exact he
    · omega

theorem unsupported_prints (lib : LibText) (m : PMsg) (hn : message m.h.type = none) (buf : CBuf) :
    msgToStr lib m buf = .ok (fill buf (headText m), .ok ((headText m).length + 2)) := by
  have he : ∀ b, iesToStr lib m.h.type m.ies b = .ok (b, .error .ENOTSUP) := by
    intro b
    unfold iesToStr
    rw [msgFields_eq, hn]
    rfl
  have hl2 : (lit " }").length = 2 := by decide +kernel
  have hh : ∀ t : Text, ((sbAt buf (some t)).append (iesToStr lib m.h.type m.ies)).bind (fun sb => sb.printf (lit " }")) =
      .ok ⟨fill buf t, buf.map (·.length), t.length + 2⟩ := by
    intro t
    cases buf with
    | none => simp [sbAt, StrBuf.append, he, StrBuf.printf, snprintf, fill, rcChars, hl2]
    | some w =>
      have hw := wr_length w t
      simp [sbAt, StrBuf.append, he, StrBuf.printf, snprintf, fill, rcChars, hl2, hw]
  unfold msgToStr strFn
  rw [show ({ buf := buf } : StrBuf) = sbAt buf none from rfl]
  simp only [printf_at, when_printf_at, bind_ok_str, hh]
  simp [headText]

/-- C68, exactly, for messages whose type is not supported: the text ends with the opening brace of the IEs; the closing brace is
counted nevertheless, with a buffer as with NULL. -/
theorem C68_unsupported (lib : LibText) (m : PMsg) (hn : message m.h.type = none) :
    (∀ w, ∃ w', msgToStr lib m (some w) = .ok (some w', .ok ((headText m).length + 2)) ∧ Printed (headText m) w w') ∧
    msgToStr lib m none = .ok (none, .ok ((headText m).length + 2)) :=
  ⟨fun w => ⟨wr w (headText m), unsupported_prints lib m hn (some w), printed_wr _ w⟩, unsupported_prints lib m hn none⟩

/-- C69, for messages whose type is not supported: a string with that text. -/
theorem C69_unsupported (fresh : Nat → List UInt8) (hfresh : ∀ n, (fresh n).length = n) (size : Nat) (lib : LibText) (m : PMsg)
    (hn : message m.h.type = none) :
    ∃ mem, nameC fresh size (msgToStr lib m) = .ok mem ∧ HoldsString mem (headText m) := by
  have key : ∀ n, (headText m).length + 2 < n → HoldsString (wr (fresh n) (headText m)) (headText m) := by
    intro n hlt
    exact ⟨_, wr_fits (by rw [hfresh]; omega)⟩
  unfold nameC
  rw [unsupported_prints lib m hn]
  simp only [bind_ok_str, fill]
  by_cases hs : (headText m).length + 2 < size
  · rw [if_pos hs]
    exact ⟨_, rfl, key size hs⟩
  · rw [if_neg hs, unsupported_prints lib m hn]
    simp only [bind_ok_str, fill]
    rw [if_pos (by omega)]
    exact ⟨_, rfl, key _ (by omega)⟩

example : message exUnsupported.h.type = none := rfl
example : headText exUnsupported = lit "PFCPv1 PFD_MGMT_REQ hdr={seq=5} ies={" := by decide +kernel

end Verif.Props
