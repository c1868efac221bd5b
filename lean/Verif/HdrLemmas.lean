/-
Lemmas about the PFCP header.
-/
import Verif.AppendLemmas

namespace Verif
open Spec Props

/-- The header as it is carried: sequence numbers have 24 bits. -/
def Hdr.carried (h : Hdr) : Hdr := { h with seq := h.seq % 2 ^ 24 }

theorem flags_facts : ∀ v, v < 8 → ∀ fo mp s : Bool,
    let f := octet (32 * v + bit 2 fo + bit 1 mp + bit 0 s)
    flag f.toNat 1 = s ∧ flag f.toNat 2 = mp ∧ f.toNat / 32 = v ∧
      UInt8.ofNat (v % 8 * 32 + (if mp then 2 else 0) + (if s then 1 else 0)) = octet (32 * v + bit 2 false + bit 1 mp + bit 0 s) ∧
      (octet (32 * v + bit 2 false + bit 1 mp + bit 0 s)) ||| 4 = octet (32 * v + bit 2 true + bit 1 mp + bit 0 s) := by
  decide

theorem rdN_at {a b c : List UInt8} {i n : Nat} (ha : a.length = i) (hb : b.length = n) :
    rdN (a ++ b ++ c) i n = .ok b := by subst ha hb; exact rdN_mid

theorem octet_toNat {n : Nat} (h : n < 256) : (octet n).toNat = n := by
  simp [octet, Nat.mod_eq_of_lt h]

theorem rd_at {a c : List UInt8} {x : UInt8} {i : Nat} (ha : a.length = i) : rd (a ++ [x] ++ c) i = .ok x := by
  subst ha; simp [rd]

theorem bodyOctets_length (h : Hdr) (x : List UInt8) :
    (bodyOctets h x).length = headerLen h.seidPresent - 4 + x.length := by
  cases hs : h.seidPresent <;> simp [bodyOctets, headerLen, part, hs] <;> omega

theorem msgOctets_length (fo : Bool) (h : Hdr) (x : List UInt8) :
    (msgOctets fo h x).length = headerLen h.seidPresent + x.length := by
  have := bodyOctets_length h x
  simp only [msgOctets, List.length_append, List.length_cons, List.length_nil, be_length, this]
  cases h.seidPresent <;> simp [headerLen] <;> omega

/-- What the encoder writes as header, before the length is updated. -/
theorem headerOctets_eq (h : Hdr) (hg : GoodHdr h.carried) :
    headerOctets h = [octet (32 * h.version + bit 2 false + bit 1 h.prioPresent + bit 0 h.seidPresent), octet h.type]
      ++ be 2 (bodyOctets h []).length ++ bodyOctets h [] := by
  obtain ⟨h1, h2, h3, h4, h5, h6⟩ := hg
  simp only [Hdr.carried] at h1 h2 h4 h5 h6
  have hf := (flags_facts h.version h1 false h.prioPresent h.seidPresent).2.2.2.1
  have hl := bodyOctets_length h []
  rw [hl]
  simp only [List.length_nil, Nat.add_zero]
  simp only [headerOctets, headerFlags, hf, bodyOctets, be_eq, List.append_nil]
  cases hs : h.seidPresent
  · have : h.prioPresent = false := by
      cases hp : h.prioPresent
      · rfl
      · have := h6 hp; rw [hs] at this; cases this
    simp [this] at h4
    simp [part, this, h4, octet]
  · cases hp : h.prioPresent <;> simp [hp] at h4
    · simp [part, h4, octet]
    · simp [part, octet, Nat.mod_eq_of_lt h4]

theorem headerOctets_length (h : Hdr) : (headerOctets h).length = headerLen h.seidPresent := by
  cases hs : h.seidPresent <;> simp [headerOctets, headerLen, hs]

/-- What `osmo_pfcp_msg_decode_header()` makes of a message. -/
theorem decodeHeader_msgOctets (fo : Bool) (h : Hdr) (x rest : List UInt8) (len : Nat) (hg : GoodHdr h.carried)
    (hx : (bodyOctets h x).length ≤ 65535) (hlen : (msgOctets fo h x).length ≤ len) :
    decodeHeader (some (msgOctets fo h x ++ rest)) len = .ok
      { h := h.carried
        isResponse := isResponseType h.type
        causeAt := (membOfsOf h.type).1
        nodeIdAt := (membOfsOf h.type).2
        tlvMem := x ++ rest
        tlvLen := x.length
        msgLen := (msgOctets fo h x).length } := by
  obtain ⟨h1, h2, h3, h4, h5, h6⟩ := hg
  simp only [Hdr.carried] at h1 h2 h4 h5 h6
  have hbl := bodyOctets_length h x
  have hml := msgOctets_length fo h x
  obtain ⟨f1, f2, f3, _, _⟩ := flags_facts h.version h1 fo h.prioPresent h.seidPresent
  have hhl : headerLen h.seidPresent = 16 ∨ headerLen h.seidPresent = 8 := by
    cases h.seidPresent <;> simp [headerLen]
  have e0 : rd (msgOctets fo h x ++ rest) 0 =
      .ok (octet (32 * h.version + bit 2 fo + bit 1 h.prioPresent + bit 0 h.seidPresent)) := by
    simp [msgOctets]
  have e1 : rd (msgOctets fo h x ++ rest) 1 = .ok (octet h.type) := by simp [msgOctets]
  have e2 : rdN (msgOctets fo h x ++ rest) 2 2 = .ok (be 2 (bodyOctets h x).length) := by
    rw [show msgOctets fo h x ++ rest =
      [octet (32 * h.version + bit 2 fo + bit 1 h.prioPresent + bit 0 h.seidPresent), octet h.type]
        ++ be 2 (bodyOctets h x).length ++ (bodyOctets h x ++ rest) from by simp [msgOctets]]
    exact rdN_at rfl (by simp)
  have eh : (msgOctets fo h x ++ rest).drop (headerLen h.seidPresent) = x ++ rest := by
    rw [show msgOctets fo h x ++ rest =
      ([octet (32 * h.version + bit 2 fo + bit 1 h.prioPresent + bit 0 h.seidPresent), octet h.type]
        ++ be 2 (bodyOctets h x).length ++ part h.seidPresent (be 8 h.seid) ++ be 3 h.seq ++ [octet h.prio]) ++ (x ++ rest)
      from by simp [msgOctets, bodyOctets]]
    apply List.drop_left'
    cases hs : h.seidPresent <;> simp [headerLen, part]
  have el : loadBE (be 2 (bodyOctets h x).length) + 4 = (msgOctets fo h x).length := by
    rw [loadBE_be_of_lt (by omega), hml, hbl]; omega
  unfold decodeHeader
  simp only
  rw [if_neg (by omega), if_neg (by omega), e0]
  simp only [Res.bind_ok', f1, f2, f3]
  rw [if_neg (by omega), e1]
  simp only [Res.bind_ok', e2, el, octet_toNat h2, eh]
  rw [if_neg (by omega)]
  have ew : ((msgOctets fo h x).length + 2 ^ 32 - headerLen h.seidPresent) % 2 ^ 32 = x.length := by
    rw [hml]
    have : headerLen h.seidPresent + x.length + 2 ^ 32 - headerLen h.seidPresent = x.length + 2 ^ 32 := by omega
    rw [this, Nat.add_mod_right, Nat.mod_eq_of_lt]
    omega
  rw [ew]
  cases hs : h.seidPresent
  · have hp : h.prioPresent = false := by
      cases hp : h.prioPresent
      · rfl
      · have := h6 hp; rw [hs] at this; cases this
    simp only [hs, hp, if_false, Bool.false_eq_true] at h4 h5
    have e3 : rdN (msgOctets fo h x ++ rest) 4 3 = .ok (be 3 h.seq) := by
      rw [show msgOctets fo h x ++ rest =
        ([octet (32 * h.version + bit 2 fo + bit 1 h.prioPresent + bit 0 h.seidPresent), octet h.type]
          ++ be 2 (bodyOctets h x).length) ++ be 3 h.seq ++ ([octet h.prio] ++ x ++ rest) from by
          simp [msgOctets, bodyOctets, hs, part]]
      exact rdN_at (by simp) (by simp)
    simp only [Bool.false_eq_true, not_false_eq_true, if_true, e3, Res.bind_ok', loadBE_be, hp, if_false]
    congr 2
    cases h
    simp only at hs hp h4 h5
    simp [Hdr.carried, hs, hp, h4, h5]
  · simp only [hs, if_true] at h5
    have e3 : rdN (msgOctets fo h x ++ rest) 4 8 = .ok (be 8 h.seid) := by
      rw [show msgOctets fo h x ++ rest =
        ([octet (32 * h.version + bit 2 fo + bit 1 h.prioPresent + bit 0 h.seidPresent), octet h.type]
          ++ be 2 (bodyOctets h x).length) ++ be 8 h.seid ++ (be 3 h.seq ++ [octet h.prio] ++ x ++ rest) from by
          simp [msgOctets, bodyOctets, hs, part]]
      exact rdN_at (by simp) (by simp)
    have e4 : rdN (msgOctets fo h x ++ rest) 12 3 = .ok (be 3 h.seq) := by
      rw [show msgOctets fo h x ++ rest =
        ([octet (32 * h.version + bit 2 fo + bit 1 h.prioPresent + bit 0 h.seidPresent), octet h.type]
          ++ be 2 (bodyOctets h x).length ++ be 8 h.seid) ++ be 3 h.seq ++ ([octet h.prio] ++ x ++ rest) from by
          simp [msgOctets, bodyOctets, hs, part]]
      exact rdN_at (by simp) (by simp)
    have e5 : rd (msgOctets fo h x ++ rest) 15 = .ok (octet h.prio) := by
      rw [show msgOctets fo h x ++ rest =
        ([octet (32 * h.version + bit 2 fo + bit 1 h.prioPresent + bit 0 h.seidPresent), octet h.type]
          ++ be 2 (bodyOctets h x).length ++ be 8 h.seid ++ be 3 h.seq) ++ [octet h.prio] ++ (x ++ rest) from by
          simp [msgOctets, bodyOctets, hs, part]]
      exact rd_at (by simp)
    simp only [not_true_eq_false, if_false, e3, e4, e5, Res.bind_ok', loadBE_be]
    congr 2
    have hprio : (if h.prioPresent = true then (octet h.prio).toNat % 16 else 0) = h.prio := by
      cases hp : h.prioPresent <;> simp only [hp, if_true, if_false, Bool.false_eq_true] at h4 ⊢
      · exact h4.symm
      · rw [octet_toNat (by omega), Nat.mod_eq_of_lt h4]
    rw [hprio]
    have hseid : h.seid % 256 ^ 8 = h.seid := Nat.mod_eq_of_lt (by omega)
    rw [hseid]
    cases h
    simp only at hs
    simp [Hdr.carried, hs]

/-! ### Encoding a message -/

theorem setMessageLength_eq (d : List UInt8) (cap : Nat) (h : Hdr) (hg : GoodHdr h.carried) (x : List UInt8) :
    setMessageLength d.length ((d ++ headerOctets h ++ x).length - d.length) ⟨cap, d ++ headerOctets h ++ x⟩ =
      if (bodyOctets h x).length ≤ 65535 then .ok ⟨cap, d ++ msgOctets false h x⟩
      else .err .EMSGSIZE ⟨cap, d ++ headerOctets h ++ x⟩ := by
  have hbl := bodyOctets_length h x
  have hhl : headerLen h.seidPresent = 16 ∨ headerLen h.seidPresent = 8 := by
    cases h.seidPresent <;> simp [headerLen]
  have hlen : (d ++ headerOctets h ++ x).length - d.length = headerLen h.seidPresent + x.length := by
    simp [headerOctets_length]
  unfold setMessageLength
  rw [hlen, if_neg (by omega)]
  by_cases hb : (bodyOctets h x).length ≤ 65535
  · rw [if_neg (by omega), if_pos hb]
    simp only [Out.ok.injEq, Msgb.mk.injEq, true_and]
    rw [headerOctets_eq h hg]
    have e : headerLen h.seidPresent + x.length - 4 = (bodyOctets h x).length := by omega
    rw [e, ← be_eq]
    generalize hF : octet (32 * h.version + bit 2 false + bit 1 h.prioPresent + bit 0 h.seidPresent) = F
    rw [show d ++ ([F, octet h.type] ++ be 2 (bodyOctets h []).length ++ bodyOctets h []) ++ x =
      (d ++ [F, octet h.type]) ++ (be 2 (bodyOctets h []).length ++ (bodyOctets h [] ++ x)) from by simp]
    rw [List.take_left' (by simp)]
    rw [show d ++ [F, octet h.type] ++ (be 2 (bodyOctets h []).length ++ (bodyOctets h [] ++ x)) =
      (d ++ [F, octet h.type] ++ be 2 (bodyOctets h []).length) ++ (bodyOctets h [] ++ x) from by simp]
    rw [List.drop_left' (by simp)]
    simp [msgOctets, hF, bodyOctets]
  · rw [if_pos (by omega), if_neg hb]

/-- What `osmo_pfcp_msg_encode()` does, in terms of what the IEs are encoded as. -/
theorem msgEncode_eq (buf : Buf) (h : Hdr) (ies : Struct IeVal) (hg : GoodHdr h.carried) :
    msgEncode buf h ies =
      let b := setFollowOn buf
      (if b.data.length + headerLen h.seidPresent ≤ b.cap then
        (encTlv h ies { b with data := b.data ++ headerOctets h }).bind fun b' =>
          setMessageLength b.data.length (b'.data.length - b.data.length) b'
      else .abort).buf (match buf.l3h with | none => some b.data.length | some o => some o) (some b.data.length) := by
  unfold msgEncode
  simp only [encHeader, Msgb.put, headerOctets_length]
  congr 1
  by_cases hc : (setFollowOn buf).data.length + headerLen h.seidPresent ≤ (setFollowOn buf).cap
  · rw [if_pos hc, if_pos hc]
    simp only [Out.bind_ok]
    rw [if_neg]
    · rfl
    · rintro ⟨a, b⟩
      exact a (hg.prioNeedsSeid b)
  · rw [if_neg hc, if_neg hc]; rfl

theorem Out.buf_ok {l3 l4 : Option Nat} {o : Out Msgb} {buf : Buf} (h : o.buf l3 l4 = .ok buf) :
    o = .ok buf.b ∧ buf.l3h = l3 ∧ buf.l4h = l4 := by
  cases o <;> simp [Out.buf] at h
  subst h
  simp

/-- A successful `osmo_pfcp_msg_encode()` appends a message. -/
theorem msgEncode_ok_inv {buf buf' : Buf} {h : Hdr} {ies : Struct IeVal} (hg : GoodHdr h.carried)
    (he : msgEncode buf h ies = .ok buf') :
    ∃ x, buf'.b = ⟨buf.b.cap, (setFollowOn buf).data ++ msgOctets false h x⟩ ∧
      (bodyOctets h x).length ≤ 65535 ∧ buf'.l4h = some (setFollowOn buf).data.length ∧
      encTlv h ies ⟨buf.b.cap, (setFollowOn buf).data ++ headerOctets h⟩ =
        .ok ⟨buf.b.cap, (setFollowOn buf).data ++ headerOctets h ++ x⟩ := by
  have hcap : (setFollowOn buf).cap = buf.b.cap := by
    unfold setFollowOn; split
    · rfl
    · split <;> rfl
  rw [msgEncode_eq _ _ _ hg] at he
  obtain ⟨e1, e2, e3⟩ := Out.buf_ok he
  split at e1
  rotate_left
  · simp at e1
  obtain ⟨b1, k1, k2⟩ := Out.bind_eq_ok e1
  obtain ⟨g1, ⟨x, g2⟩, _⟩ := (encTlv_grows h ies _).1 b1 k1
  simp only at g1 g2
  have hb1 : b1 = ⟨buf.b.cap, (setFollowOn buf).data ++ headerOctets h ++ x⟩ := by
    cases b1; simp only at g1 g2; rw [g1, g2, hcap]
  rw [hb1] at k1 k2
  simp only at k2
  rw [setMessageLength_eq _ _ h hg] at k2
  split at k2
  rotate_left
  · simp at k2
  rename_i hb
  simp only [Out.ok.injEq] at k2
  rw [hcap] at k1
  exact ⟨x, k2.symm, hb, e3, k1⟩

theorem setFollowOn_none {buf : Buf} (h : buf.l4h = none) : setFollowOn buf = buf.b := by
  simp [setFollowOn, h]

theorem modify_mid {α} (f : α → α) (x : α) (r : List α) : ∀ d : List α, (d ++ x :: r).modify d.length f = d ++ f x :: r
  | [] => by simp
  | a :: d => by simpa using modify_mid f x r d

/-- Setting Follow On on the last message. -/
theorem setFollowOn_last {buf : Buf} {d : List UInt8} {h : Hdr} {x : List UInt8} (hg : GoodHdr h.carried)
    (hb : buf.b.data = d ++ msgOctets false h x) (hl : buf.l4h = some d.length) :
    setFollowOn buf = { buf.b with data := d ++ msgOctets true h x } := by
  have hf := (flags_facts h.version hg.version false h.prioPresent h.seidPresent).2.2.2.2
  simp only [setFollowOn, hl]
  rw [if_pos]
  · congr 1
    rw [hb]
    simp only [msgOctets, List.cons_append, modify_mid, hf]
  · rw [hb]; simp [msgOctets]

end Verif
