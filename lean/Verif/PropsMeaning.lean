/-
Property C79: what is decoded is what the octets mean.
-/
import Verif.Meaning
import Verif.PropsMsg2
import Verif.PropsSafe

namespace Verif.Props
open Verif Spec

theorem rd_numAt (o : List UInt8) (i : Nat) (h : i < o.length) : ((o[i]?).getD 0).toNat = numAt o i 1 := by
  rw [numAt, List.getElem?_eq_getElem h, List.drop_eq_getElem_cons h]
  show _ = loadBE [o[i]]
  simp [loadBE]

theorem headerOf_h {m r : List UInt8} (h : Framed m) : (headerOf m r).h = headerAt m := by
  obtain ⟨h1, h2, h3, h4⟩ := h
  have hc := announcedHeader_cases m
  have e0 := rd_numAt m 0 (by omega)
  have e1 := rd_numAt m 1 (by omega)
  rcases hc with ⟨hc, hb⟩ | ⟨hc, hb⟩
  · have e15 := rd_numAt m 15 (by omega)
    simp only [headerOf, headerAt, e0, e1, e15, hb, hc, optAt, numAt, if_true]
    cases bitAt m 1 <;> simp
  · have hp : bitAt m 1 = false := by
      cases hx : bitAt m 1
      · rfl
      · have := h4 hx; rw [hb] at this; exact absurd this (by simp)
    simp only [headerOf, headerAt, e0, e1, hb, hc, optAt, numAt, hp]
    simp

/-- C79: a message with a proper header is decoded to the header and the IEs that its octets mean, or, if they mean nothing,
to an error. -/
theorem C79_decoding (m rest : List UInt8) (hm : Framed m) (hz : 0 ∈ rest) :
    ∃ d, decodeHeader (some (m ++ rest)) m.length = .ok d ∧ d.h = headerAt m ∧
      (∀ s, decodeTlv d = .ok s ↔ BodyMeans m s) ∧ ((¬ ∃ s, BodyMeans m s) → ∃ e, decodeTlv d = .err e) := by
  have hd := decodeHeader_framed hm [] rest
  simp only [List.append_nil, List.nil_append] at hd
  have hw := headerOf_window (r := rest) hm
  have ht : (headerOf m rest).h.type = numAt m 1 1 := rd_numAt m 1 (by have := hm.1; omega)
  have key : ∀ s, decodeTlv (headerOf m rest) = .ok s ↔ BodyMeans m s := by
    intro s
    unfold decodeTlv BodyMeans
    rw [hw.1, hw.2.1, ht, C66_message_definitions]
    cases hf : message (numAt m 1 1) with
    | none =>
      simp only [Option.map_none]
      constructor
      · intro h; cases h
      · rintro ⟨f, ies, h, _⟩; cases h
    | some f =>
      simp only [Option.map_some]
      have hf' : msgFields (numAt m 1 1) = some f := (msgFields_eq _).trans hf
      rw [Fields.means_octets f (message_wf hf) (msgFields_room hf') _ rest hz s]
      constructor
      · rintro ⟨ies, h1, h2, h3⟩; exact ⟨f, ies, rfl, h1, h2, h3⟩
      · rintro ⟨f', ies, h0, h1, h2, h3⟩; cases h0; exact ⟨ies, h1, h2, h3⟩
  refine ⟨_, hd, headerOf_h hm, key, ?_⟩
  intro hno
  have hret := (decodeTlv_local hm hz hz).2
  cases hx : decodeTlv (headerOf m rest) with
  | ok s => exact absurd ⟨s, (key s).1 hx⟩ hno
  | err e => exact ⟨e, rfl⟩
  | abort => rw [hx] at hret; exact hret.elim
  | ub => rw [hx] at hret; exact hret.elim
  | diverge => rw [hx] at hret; exact hret.elim

/-- C79: octets mean one message at most. -/
theorem C79_unambiguous (m : List UInt8) (hm : Framed m) {s s' : Struct IeVal} (h : BodyMeans m s) (h' : BodyMeans m s') :
    s = s' := by
  obtain ⟨d, _, _, h1, _⟩ := C79_decoding m [0] hm (by simp)
  have a := (h1 s).2 h
  have b := (h1 s').2 h'
  rw [a] at b
  cases b
  rfl

/-! ### Datagrams -/

/-- What follows a message in a datagram whose length fields cover the headers is such a datagram. -/
theorem Covered.tail {m o : List UInt8} (hm : Framed m) (h : Covered (m ++ o)) : Covered o := by
  have key : ∀ i, Begins o i → Begins (m ++ o) (m.length + i) := by
    intro i hi
    induction hi with
    | first =>
      have e : announcedLength ((m ++ o).drop 0) = m.length := by
        rw [List.drop_zero]
        have := hm.2.2.1
        rw [announcedLength] at this ⊢
        rw [List.drop_append_of_le_length (by have := hm.1; omega),
          List.take_append_of_le_length (by have := hm.1; simp; omega)]
        exact this
      have := Begins.next (o := m ++ o) .first
      rw [e] at this
      simpa using this
    | @next i _ ih =>
      have := Begins.next ih
      rwa [show (m ++ o).drop (m.length + i) = o.drop i from by rw [List.drop_append]; simp, Nat.add_assoc] at this
  intro i hi hl
  have := h _ (key i hi)
  rw [show (m ++ o).drop (m.length + i) = o.drop i from by rw [List.drop_append]; simp] at this
  exact this (by rw [List.length_append]; omega)

/-- A datagram begins with a message, or no message begins there. -/
theorem Covered.cases {o : List UInt8} (h : Covered o) : NoMessage o ∨ ∃ m o', Framed m ∧ o = m ++ o' := by
  by_cases hn : NoMessage o
  · exact .inl hn
  · refine .inr ?_
    simp only [NoMessage, not_or, Nat.not_lt, not_and, Bool.not_eq_false] at hn
    obtain ⟨h1, h2, h3, h4⟩ := hn
    have hc := h 0 .first (by simpa using h2)
    rw [List.drop_zero] at hc
    have hmin : min (announcedLength o) o.length = announcedLength o := by omega
    have hge : 4 ≤ announcedLength o := by unfold announcedLength; omega
    have e0 : ∀ i, i < 8 → bitAt (o.take (announcedLength o)) i = bitAt o i := by
      intro i hi
      have := bitAt_append (m := o.take (announcedLength o)) (w := o.drop (announcedLength o)) (i := i) (by simp; omega) hi
      rw [List.take_append_drop] at this
      exact this.symm
    have eh : announcedHeader (o.take (announcedLength o)) = announcedHeader o := by
      simp only [announcedHeader, e0 0 (by omega)]
    have el : announcedLength (o.take (announcedLength o)) = announcedLength o := by
      have : ∀ n, 4 ≤ n → announcedLength (o.take n) = announcedLength o := by
        intro n hn
        rw [announcedLength, announcedLength, List.drop_take, List.take_take, Nat.min_eq_left (by omega)]
      exact this _ hge
    refine ⟨o.take (announcedLength o), o.drop (announcedLength o), ⟨?_, ?_, ?_, ?_⟩, (List.take_append_drop _ _).symm⟩
    · rw [List.length_take, hmin]; exact hge
    · rw [List.length_take, hmin, eh]; exact hc
    · rw [List.length_take, hmin, el]
    · rw [e0 0 (by omega), e0 1 (by omega)]; exact h4

theorem rxLoop_means (remote : Sockaddr) (slack : List UInt8) (hz : (0 : UInt8) ∈ slack) :
    ∀ (fuel : Nat) (o : List UInt8) (l : List Rx), Covered o → o.length < fuel →
      rxLoop fuel (o ++ slack) o.length = .ok l →
      DatagramMeans remote o (l.filterMap fun x => x.ies.map (Rx.msg remote x.hdr))
  | 0, _, _, _, hf, _ => by omega
  | fuel + 1, o, l, hcov, hf, h => by
    rcases Covered.cases hcov with hn | ⟨m, o', hm, rfl⟩
    · have : l = [] := by
        unfold rxLoop at h
        by_cases h0 : o.length = 0
        · rw [if_pos h0] at h; cases h; rfl
        · rw [if_neg h0, decodeHeader_form] at h
          rcases hn with hn | hn | hn | hn
          · rw [if_pos (.inl hn)] at h; cases h; rfl
          · rw [if_pos (.inr hn)] at h; cases h; rfl
          · by_cases h1 : o.length < 4 ∨ o.length < announcedHeader o
            · rw [if_pos h1] at h; cases h; rfl
            · rw [if_neg h1, if_pos hn] at h; cases h; rfl
          · by_cases h1 : o.length < 4 ∨ o.length < announcedHeader o
            · rw [if_pos h1] at h; cases h; rfl
            · rw [if_neg h1] at h
              by_cases h2 : o.length < announcedLength o
              · rw [if_pos h2] at h; cases h; rfl
              · rw [if_neg h2, if_pos (by simp [hn.1, hn.2])] at h; cases h; rfl
      subst this
      exact .stop hn
    · rw [rxLoop_framed hm o' slack hz fuel, Res.bind_eq_ok_iff] at h
      obtain ⟨l', h1, h2⟩ := h
      cases h2
      have ih := rxLoop_means remote slack hz fuel o' l' (Covered.tail hm hcov)
        (by have := hm.1; simp only [List.length_append] at hf; omega) h1
      obtain ⟨d, g1, g2, g3, g4⟩ := C79_decoding m [0] hm (by simp)
      have hd := decodeHeader_framed hm [] [0]
      simp only [List.append_nil, List.nil_append] at hd
      rw [hd] at g1
      cases g1
      rw [List.filterMap_cons]
      cases ht : decodeTlv (headerOf m [0]) with
      | ok s =>
        exact .good ⟨hm, rfl, rfl, headerOf_h (r := o' ++ slack) hm, C33_response_types _, (g3 s).1 ht⟩ ih
      | err e =>
        refine .bad hm ?_ ih
        rintro ⟨s, hs⟩
        rw [(g3 s).2 hs] at ht
        cases ht
      | abort => have := (decodeTlv_local (r := [0]) (r' := [0]) hm (by simp) (by simp)).2; rw [ht] at this; exact this.elim
      | ub => have := (decodeTlv_local (r := [0]) (r' := [0]) hm (by simp) (by simp)).2; rw [ht] at this; exact this.elim
      | diverge => have := (decodeTlv_local (r := [0]) (r' := [0]) hm (by simp) (by simp)).2; rw [ht] at this; exact this.elim

/-- C79, at the endpoint: of a datagram whose length fields cover the headers (C22, C72), exactly the messages that it means are
handled, in order. -/
theorem C79_datagram {ep ep' : Ep} (h : Reached ep) {remote d rs} (hs : ep.sock = true) (hd : d ≠ []) (hlen : d.length < 2048)
    (hcov : Covered d) (hr : ep.rxDatagram remote d rs = .ok ep') :
    ∃ l, ep'.log = l ++ ep.log ∧ DatagramMeans remote d (receivedMsgs l) := by
  obtain ⟨msgs, l, h1, h2, h3⟩ := C51_datagram h hs hr hd
  refine ⟨l, h2, ?_⟩
  rw [h3]
  rw [Nat.min_eq_left (by omega), List.take_of_length_le (by omega), rxBundle_eq] at h1
  exact rxLoop_means remote _ (List.mem_replicate.mpr ⟨by omega, rfl⟩) _ d msgs hcov (by omega) h1

/-! ### An example -/

/-- A Session Modification Response: Created PDR (with PDR ID 7), an unknown IE, Cause 1. -/
def exModResp : List UInt8 :=
  [0x20, 53, 0, 24, 0, 0, 9, 0, 0, 8, 0, 6, 0, 56, 0, 2, 0, 7, 0, 200, 0, 1, 5, 0, 19, 0, 1, 1]

/-- The same without the Cause. -/
def exNoCause : List UInt8 := [0x20, 53, 0, 19, 0, 0, 9, 0, 0, 8, 0, 6, 0, 56, 0, 2, 0, 7, 0, 200, 0, 1, 5]

theorem exModResp_framed : Framed exModResp := by unfold Framed; decide
theorem exNoCause_framed : Framed exNoCause := by unfold Framed; decide

/-- Its meaning, from the specification. -/
theorem exModResp_means :
    BodyMeans exModResp [[.leaf (.cause 1)], [], [.node [[.leaf (.u16 7)], []]], []] := by
  refine ⟨_, [(8, [0, 56, 0, 2, 0, 7]), (200, [5]), (19, [1])], rfl, by simp [Fits16], rfl, ?_⟩
  refine ⟨by decide, .cons (.inr (.inr ⟨nofun, nofun, rfl⟩)) .nil, by decide, .nil, by decide, .cons ?_ .nil, by decide, .nil, trivial⟩
  exact ⟨[(56, [0, 7])], by simp [Fits16], rfl, by decide, .cons (.inr (.inr ⟨nofun, nofun, rfl⟩)) .nil, by decide, .nil, trivial⟩

/-- The other means nothing. -/
theorem exNoCause_means : ¬ ∃ s, BodyMeans exNoCause s := by
  rintro ⟨s, hs⟩
  obtain ⟨d, h1, _, h2, _⟩ := C79_decoding exNoCause [0] exNoCause_framed (by simp)
  have hd := decodeHeader_framed exNoCause_framed [] [0]
  simp only [List.append_nil, List.nil_append] at hd
  rw [hd] at h1
  cases h1
  have h3 := (h2 s).2 hs
  have h4 : decodeTlv (headerOf exNoCause [0]) = .err .EINVAL := rfl
  rw [h4] at h3
  cases h3

example : headerAt exModResp = { version := 1, type := 53, seq := 9 } := rfl

/-- Both in one datagram, with an octet behind them. -/
example (remote : Sockaddr) : ∃ x, IsReadAs remote exModResp x ∧
    DatagramMeans remote (exNoCause ++ (exModResp ++ [3])) [x] :=
  have h : IsReadAs remote exModResp { remote := remote, rx := true, isResponse := true, h := headerAt exModResp
                                       ies := [[.leaf (.cause 1)], [], [.node [[.leaf (.u16 7)], []]], []] } :=
    ⟨exModResp_framed, rfl, rfl, rfl, ⟨fun _ => (by decide : 53 ∈ responseTypes), fun _ => rfl⟩, exModResp_means⟩
  ⟨_, h, .bad exNoCause_framed exNoCause_means (.good h (.stop (.inl (by decide))))⟩

end Verif.Props
