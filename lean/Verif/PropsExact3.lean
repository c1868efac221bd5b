/-
More about C06, C08, C11, C17, C26 and C27.
-/
import Verif.PropsMeaning

namespace Verif.Props
open Verif Spec

/-! ### C06 -/

/-- C06, `osmo_t8l8v_cfg`: after a successful `osmo_gtlv_put_tl()` and any `v` appended behind it, the length update changes
exactly the length octet, to the length of `v`, or reports -EMSGSIZE. -/
theorem C06_update_tl_t8l8v (p p' : Put) (b b' : Msgb) (tag len : Nat) (v : List UInt8)
    (h : putTl t8l8v p b tag len = .ok (p', b')) :
    putUpdateTl t8l8v p' { b' with data := b'.data ++ v } =
      if 255 < v.length then .error .EMSGSIZE
      else .ok (p', { b with data := b.data ++ [Spec.octet tag, Spec.octet v.length] ++ v }) := by
  rw [C06_put_tl_t8l8v] at h
  split at h
  · simp at h
  · split at h
    · simp at h
    · split at h
      · simp at h
      · rename_i h1 h2 h3
        simp only [Except.ok.injEq, Prod.mk.injEq] at h
        obtain ⟨rfl, rfl⟩ := h
        have hl : ∀ x y : UInt8, (b.data ++ [x, y] ++ v).length - (b.data.length + 2) = v.length := by
          intros; simp only [List.length_append, List.length_cons, List.length_nil]; omega
        unfold putUpdateTl
        simp only [t8l8v, gt_iff_lt]
        rw [hl, if_neg h1]
        by_cases h4 : 255 < v.length
        · simp [h4]
        · have hm : ¬ (b.data.length + 2 - b.data.length < 2) := by omega
          rw [if_neg h4, if_neg h4, if_neg hm]
          simp [storeBE, Spec.octet]

example : (putTl t8l8v {} ⟨64, [7]⟩ 19 0) = .ok ({ last := some ({ tag := 19 }, 1, 3) }, ⟨64, [7, 19, 0]⟩) := rfl

/-! ### C17 -/

variable {A : Type}

theorem encodeVals_cut (cfg : Cfg) (c : Coding A) (mx mn : Nat) (hk : c.kind = .multi mx mn) (vs : List (Val A)) :
    ∀ (i : Nat) (p : Put) (b : Msgb), i ≤ mx → mx < i + vs.length →
      (∃ q q', encodeVals cfg c (vs.take (mx - i)) i p b = .ok q ∧ encodeVals cfg c vs i p b = .err .ENOTSUP q') ∨
      ((∀ q, encodeVals cfg c (vs.take (mx - i)) i p b ≠ .ok q) ∧
        encodeVals cfg c vs i p b = encodeVals cfg c (vs.take (mx - i)) i p b) := by
  induction vs with
  | nil => intro i p b h1 h2; simp at h2; omega
  | cons v vs ih =>
    intro i p b h1 h2
    by_cases hi : i = mx
    · left
      subst hi
      refine ⟨(p, b), (ignoreErr (putTli cfg p b c.ti 0) p b), by simp [encodeVals], ?_⟩
      simp only [encodeVals]
      rw [if_pos (by rw [hk]; simp [Kind.exceeds])]
    · have e : mx - i = (mx - (i + 1)) + 1 := by omega
      rw [e, List.take_succ_cons]
      simp only [encodeVals]
      have hx : ¬ (c.kind.exceeds i = true) := by
        rw [hk]; simp only [Kind.exceeds, ge_iff_le, decide_eq_true_eq]; omega
      rw [if_neg hx, if_neg hx]
      cases he : c.enc with
      | none => right; simp
      | some enc =>
        simp only
        cases enc v (ignoreErr (putTli cfg p b c.ti 0) p b).2 with
        | ok b1 => exact ih (i + 1) _ _ (by omega) (by simp at h2; omega)
        | err e b1 => right; simp
        | abort => right; simp
        | ub => right; simp
        | diverge => right; simp

/-- C17: the outcome with too large a count of a repeated IE, exactly: what the entries up to this one give with as many values
as the struct has room for decides.  If it is an error (of an encoder), then this error is the outcome; if it is success, then the outcome
is -ENOTSUP.  What the table has behind this entry does not matter. -/
theorem C17_exactly (cfg : Cfg) (pre post : List (Coding A)) (c : Coding A) (spre spost : Struct A) (vs : List (Val A))
    (max mandatory : Nat) (hk : c.kind = .multi max mandatory) (hover : max < vs.length) (hl : spre.length = pre.length) (b : Msgb) :
    (∃ b1 b2, gtlvsEncode cfg (spre ++ [vs.take max]) b (some (pre ++ [c])) = .ok b1 ∧
      gtlvsEncode cfg (spre ++ vs :: spost) b (some (pre ++ c :: post)) = .err .ENOTSUP b2) ∨
    ((∀ b1, gtlvsEncode cfg (spre ++ [vs.take max]) b (some (pre ++ [c])) ≠ .ok b1) ∧
      gtlvsEncode cfg (spre ++ vs :: spost) b (some (pre ++ c :: post)) =
        gtlvsEncode cfg (spre ++ [vs.take max]) b (some (pre ++ [c]))) := by
  have key : ∀ (pre : List (Coding A)) (spre : Struct A) (p : Put) (b : Msgb), spre.length = pre.length →
      (∃ q q', encodeTable cfg (pre ++ [c]) (spre ++ [vs.take max]) p b = .ok q ∧
        encodeTable cfg (pre ++ c :: post) (spre ++ vs :: spost) p b = .err .ENOTSUP q') ∨
      ((∀ q, encodeTable cfg (pre ++ [c]) (spre ++ [vs.take max]) p b ≠ .ok q) ∧
        encodeTable cfg (pre ++ c :: post) (spre ++ vs :: spost) p b = encodeTable cfg (pre ++ [c]) (spre ++ [vs.take max]) p b) := by
    intro pre
    induction pre with
    | nil =>
      intro spre p b hl
      have : spre = [] := by cases spre <;> simp at hl ⊢
      subst this
      have hm : ∀ l : List (Val A), membVals c.kind l = some l := by intro l; rw [hk]; cases l <;> rfl
      simp only [List.nil_append, encodeTable, hm]
      rcases encodeVals_cut cfg c max mandatory hk vs 0 p b (by omega) (by omega) with ⟨q, q', h1, h2⟩ | ⟨h1, h2⟩
      · rw [Nat.sub_zero] at h1
        left
        rw [h1, h2]
        exact ⟨_, _, rfl, rfl⟩
      · rw [Nat.sub_zero] at h1 h2
        right
        rw [h2]
        cases hq : encodeVals cfg c (vs.take max) 0 p b with
        | ok q => exact absurd hq (h1 q)
        | _ => simp
    | cons c0 pre ih =>
      intro spre p b hl
      cases spre with
      | nil => simp at hl
      | cons s0 spre =>
        simp only [List.cons_append, encodeTable]
        split
        · right; simp
        · split
          · exact ih spre _ _ (by simpa using hl)
          · right; simp
          · right; simp
          · right; simp
          · right; simp
  simp only [gtlvsEncode]
  rcases key pre spre {} b hl with ⟨q, q', h1, h2⟩ | ⟨h1, h2⟩
  · left
    rw [h1, h2]
    exact ⟨_, _, rfl, rfl⟩
  · right
    rw [h2]
    refine ⟨?_, rfl⟩
    intro b1 h
    cases hq : encodeTable cfg (pre ++ [c]) (spre ++ [vs.take max]) {} b with
    | ok q => exact h1 q hq
    | _ => rw [hq] at h; simp [dropPut] at h

/-- A count of 2 where one value fits: -ENOTSUP, with the TL of the second value in the msgb. -/
example : gtlvsEncode t8l8v [[.leaf [7]], [.leaf [1], .leaf [2]], [.leaf [9]]] ⟨64, []⟩
      (some [raw 1 .mand, raw 2 (.multi 1 0), raw 3 .mand]) = .err .ENOTSUP ⟨64, [1, 1, 7, 2, 1, 1, 2, 0]⟩ ∧
    gtlvsEncode t8l8v [[.leaf [7]], [.leaf [1]]] ⟨64, []⟩ (some [raw 1 .mand, raw 2 (.multi 1 0)]) = .ok ⟨64, [1, 1, 7, 2, 1, 1]⟩ :=
  ⟨rfl, rfl⟩

/-! ### C08, C11: the error codes -/

theorem ev_of {ies : List Ie} {e : Ev} (he : e ∈ evs (ies.map asIe)) : ∃ x ∈ ies, e = (tagOf x, x.2, x.2.length) := by
  unfold evs at he
  rw [List.map_map] at he
  obtain ⟨x, hx, rfl⟩ := List.mem_map.1 he
  exact ⟨x, hx, rfl⟩

/-- C11: a tag occurs more often than there is room for, and all values of the IEs can be decoded: the error is -ENOTSUP. -/
theorem C11_surplus_exactly (w : Width) (table : List (Coding A)) (ies : List Ie) (hfit : ∀ x ∈ ies, w.Fits x) (rest : List UInt8)
    (hloc : ∀ c ∈ table, LooksOnlyAtIe c)
    (hdec : ∀ c ∈ table, ∀ x ∈ ies, c.ti = tagOf x → ∃ d v, c.dec = some d ∧ d x.2 x.2.length = .ok v)
    (t : TagInst) (hcap : capacity t table ≠ 0) (hsur : capacity t table < count t ies) :
    gtlvsDecode (fresh w.cfg (w.octets ies ++ rest) (w.octets ies).length) false (some table) = .err .ENOTSUP := by
  have hne := C11_surplus_fails w table ies hfit rest t hcap hsur
  obtain ⟨es, h1, h2⟩ := decodeUnordered_on_ies w table ies hfit rest
  rw [decodeMany_local hloc h1] at h2
  rcases decodeMany_enotsup (codings := table) (evs (ies.map asIe)) (by
    intro c hc e he hti
    obtain ⟨x, hx, rfl⟩ := ev_of he
    exact hdec c hc x hx hti) (emptyStruct_ok table) with ⟨s1, h3⟩ | h3
  · exfalso
    rw [← decodeMany_local hloc h1] at h3
    obtain ⟨hok, hu⟩ := decodeMany_ok es (emptyStruct_ok table) h3
    have := hu t (by rwa [← capacity_eq])
    rw [usedBy_empty, Nat.zero_add, countTag_eq h1] at this
    have h5 := usedBy_le t table s1 hok.len hok.cap
    rw [← capacity_eq] at h5
    omega
  · rw [h2, h3]; rfl

/-- C08: a minimum is missed, there is room for all IEs, and all their values can be decoded: the error is -EINVAL. -/
theorem C08_missing_exactly (w : Width) (table : List (Coding A)) (ies : List Ie)
    (hfit : ∀ x ∈ ies, w.Fits x) (rest : List UInt8) (hsm : SmallTable table) (hloc : ∀ c ∈ table, LooksOnlyAtIe c)
    (hdec : ∀ c ∈ table, ∀ x ∈ ies, c.ti = tagOf x → ∃ d v, c.dec = some d ∧ d x.2 x.2.length = .ok v)
    (hroom : ∀ t, capacity t table ≠ 0 → count t ies ≤ capacity t table)
    (t : TagInst) (hmiss : count t ies < required t table) :
    gtlvsDecode (fresh w.cfg (w.octets ies ++ rest) (w.octets ies).length) false (some table) = .err .EINVAL := by
  have hno : ∀ s, gtlvsDecode (fresh w.cfg (w.octets ies ++ rest) (w.octets ies).length) false (some table) ≠ .ok s := by
    intro s hs
    obtain ⟨ies', g1, g2, -, -, g3⟩ := C08_unordered_success w table _ _ (by simp) s hs
    rw [List.take_left' rfl] at g2
    have := Width.octets_inj w hfit g1 g2
    subst this
    have := g3 t
    omega
  obtain ⟨es, h1, h2⟩ := decodeUnordered_on_ies w table ies hfit rest
  rw [decodeMany_local hloc h1] at h2
  obtain ⟨s, hs⟩ := decodeMany_succeeds (codings := table) hsm (evs (ies.map asIe)) (by
    intro c hc e he hti
    obtain ⟨x, hx, rfl⟩ := ev_of he
    exact hdec c hc x hx hti) (emptyStruct_ok table) (by
    intro t ht
    have : countTag t (evs (ies.map asIe)) = count t ies :=
      countTag_eq (es := evs (ies.map asIe)) ⟨by simp [evs, Ev.tlv, Function.comp_def], by
        intro e he; obtain ⟨x, -, rfl⟩ := ev_of he; exact Nat.le_refl _⟩ t
    rw [usedBy_empty, Nat.zero_add, this, ← capacity_eq]
    exact hroom t (by rwa [capacity_eq]))
  rw [hs] at h2
  simp only [Res.bind_ok'] at h2
  rcases checkMandatory_einval table s 0 (by have := hsm; unfold SmallTable at this; simp only [maxCodings]; omega) with hk | hk
  · rw [hk] at h2; exact absurd h2 (hno s)
  · rw [hk] at h2; simpa using h2

/-! ### C26, C27: at the endpoint -/

/-- The messages that are handled, one after the other. -/
def _root_.Verif.Ep.handleSeen (ep : Ep) (remote : Sockaddr) : List Seen → List React → Res Ep
  | [], _ => .ok ep
  | (h, isResponse, causeAt, nodeIdAt, ies) :: l, rs =>
    (ep.handleRx { msgAllocRx remote with isResponse, h, causeAt, nodeIdAt, ies } (rs.headD {})).bind fun ep =>
      ep.handleSeen remote l rs.tail

theorem handleAll_handled (remote : Sockaddr) : ∀ (l : List Rx) (ep : Ep) (rs : List React),
    ep.handleAll remote l rs = ep.handleSeen remote (handled l) rs
  | [], _, _ => rfl
  | ⟨d, none⟩ :: l, ep, rs => by
    simp only [Ep.handleAll]
    rw [handleAll_handled remote l]
    rfl
  | ⟨d, some ies⟩ :: l, ep, rs => by
    simp only [Ep.handleAll, handled, List.filterMap_cons, Option.map_some, Ep.handleSeen]
    congr 1
    funext ep
    exact handleAll_handled remote l ep rs.tail

theorem rxDatagram_receive {ep : Ep} (h : Reached ep) (remote : Sockaddr) (d : List UInt8) (hlen : d.length < 2048) (rs : List React) :
    ep.rxDatagram remote d rs =
      if ep.sock = true then (receive d (List.replicate (2048 - d.length) 0)).bind fun l => ep.handleSeen remote l rs else .ok ep := by
  unfold Ep.rxDatagram
  dsimp only
  rw [List.take_of_length_le (by simp only [allocSize]; omega)]
  by_cases hs : ep.sock = true
  · rw [if_pos hs]
    by_cases hd : d = []
    · subst hd
      rw [if_pos (.inr rfl)]
      rfl
    · rw [if_neg (by simp [hs, hd]), if_neg (by simp [(C53_receives h).1 hs])]
      unfold receive
      simp only [allocSize]
      cases rxBundle (d.length + 1) (Buf.received d) (List.replicate (2048 - d.length) 0) with
      | ok l => exact handleAll_handled remote l ep rs
      | _ => rfl
  · rw [if_pos (.inl hs), if_neg hs]

theorem receive_none {o slack : List UInt8} (hn : NoMessage o) : receive o slack = .ok [] := by
  have : rxLoop (o.length + 1) (o ++ slack) o.length = .ok [] := by
    unfold rxLoop
    by_cases h0 : o.length = 0
    · rw [if_pos h0]
    · rw [if_neg h0, decodeHeader_form]
      rcases hn with hn | hn | hn | hn
      · rw [if_pos (.inl hn)]
      · rw [if_pos (.inr hn)]
      · by_cases h1 : o.length < 4 ∨ o.length < announcedHeader o
        · rw [if_pos h1]
        · rw [if_neg h1, if_pos hn]
      · by_cases h1 : o.length < 4 ∨ o.length < announcedHeader o
        · rw [if_pos h1]
        · rw [if_neg h1]
          by_cases h2 : o.length < announcedLength o
          · rw [if_pos h2]
          · rw [if_neg h2, if_pos (by simp [hn.1, hn.2])]
  unfold receive
  rw [rxBundle_eq, this]
  rfl

/-- Which octets are behind the datagram does not matter. -/
theorem receive_slack (slack slack' : List UInt8) (hz : 0 ∈ slack) (hz' : 0 ∈ slack') :
    ∀ (n : Nat) (o : List UInt8), o.length ≤ n → Covered o → receive o slack = receive o slack'
  | n, o, hn, hc => by
    rcases Covered.cases hc with h | ⟨m, o', hm, rfl⟩
    · rw [receive_none h, receive_none h]
    · have := hm.1
      cases n with
      | zero => rw [List.length_append] at hn; omega
      | succ n =>
        rw [receive_framed hm o' slack hz, receive_framed hm o' slack' hz',
          receive_slack slack slack' hz hz' n o' (by rw [List.length_append] at hn; omega) (Covered.tail hm hc)]

/-- C26, at the endpoint: a message with a proper header whose IEs mean nothing has no effect at all: the endpoint does, and
becomes, what it does and becomes when the datagram comes without this message - wherever in the datagram it is. -/
theorem C26_no_effect {ep : Ep} (h : Reached ep) (remote : Sockaddr) (rs : List React) (a : List (List UInt8)) (bad b : List UInt8)
    (ha : ∀ m ∈ a, Framed m) (hbad : Framed bad) (hb : Covered b) (hund : ¬ ∃ s, BodyMeans bad s)
    (hlen : (a.flatten ++ bad ++ b).length < 2048) :
    ep.rxDatagram remote (a.flatten ++ bad ++ b) rs = ep.rxDatagram remote (a.flatten ++ b) rs := by
  have hz : ∀ n, n < 2048 → (0 : UInt8) ∈ List.replicate (2048 - n) 0 := fun n hn => List.mem_replicate.mpr ⟨by omega, rfl⟩
  have hlen' : (a.flatten ++ b).length < 2048 := by simp only [List.length_append] at hlen ⊢; omega
  rw [rxDatagram_receive h _ _ hlen, rxDatagram_receive h _ _ hlen']
  have e1 := C26_bad_message_is_skipped a bad b _ (hz _ hlen) ha hbad (by
    intro d hd
    obtain ⟨d', g1, g2, g3, g4⟩ := C79_decoding bad [0] hbad (by simp)
    rw [hd] at g1
    cases g1
    obtain ⟨-, hret⟩ := decodeTlv_local (r := [0]) (r' := [0]) hbad (by simp) (by simp)
    have hh := decodeHeader_framed hbad [] [0]
    simp only [List.append_nil, List.nil_append] at hh
    rw [hd] at hh
    cases hh
    cases ht : decodeTlv (headerOf bad [0]) with
    | ok s => exact absurd ⟨s, (g3 s).1 ht⟩ hund
    | err e => exact ⟨e, rfl⟩
    | abort => rw [ht] at hret; exact hret.elim
    | ub => rw [ht] at hret; exact hret.elim
    | diverge => rw [ht] at hret; exact hret.elim)
  rw [e1]
  have hcov : ∀ l : List (List UInt8), (∀ m ∈ l, Framed m) → ∀ s s', 0 ∈ s → 0 ∈ s' → receive (l.flatten ++ b) s = receive (l.flatten ++ b) s' := by
    intro l hl s s' hs hs'
    induction l with
    | nil => exact receive_slack s s' hs hs' _ b (Nat.le_refl _) hb
    | cons m l ih =>
      rw [List.flatten_cons, List.append_assoc, receive_framed (hl m (by simp)) _ s hs, receive_framed (hl m (by simp)) _ s' hs',
        ih fun x hx => hl x (by simp [hx])]
  rw [hcov a ha _ _ (hz _ hlen) (hz _ hlen')]

/-- C27, at the endpoint: a message of a type that is not defined has no effect at all: it is neither dispatched nor answered. -/
theorem C27_no_effect {ep : Ep} (h : Reached ep) (remote : Sockaddr) (rs : List React) (a : List (List UInt8)) (bad b : List UInt8)
    (ha : ∀ m ∈ a, Framed m) (hbad : Framed bad) (hb : Covered b) (hm : message (numAt bad 1 1) = none)
    (hlen : (a.flatten ++ bad ++ b).length < 2048) :
    ep.rxDatagram remote (a.flatten ++ bad ++ b) rs = ep.rxDatagram remote (a.flatten ++ b) rs :=
  C26_no_effect h remote rs a bad b ha hbad hb (fun ⟨_, _, _, hf, _⟩ => by rw [hm] at hf; cases hf) hlen

/-- C27: alone in its datagram, it leaves the endpoint as it was. -/
theorem C27_alone {ep : Ep} (h : Reached ep) (remote : Sockaddr) (rs : List React) (bad : List UInt8)
    (hbad : Framed bad) (hm : message (numAt bad 1 1) = none) (hlen : bad.length < 2048) :
    ep.rxDatagram remote bad rs = .ok ep := by
  have := C27_no_effect h remote rs [] bad [] (by simp) hbad (by
    intro i hi hl
    have : announcedHeader [] = 8 := by decide
    rw [List.drop_nil, this] at hl
    simp at hl) hm (by simpa using hlen)
  simp only [List.flatten_nil, List.nil_append, List.append_nil] at this
  rw [this, rxDatagram_receive h _ _ (by simp)]
  split <;> rfl

/-- A Version Not Supported Response (type 11) is framed, and not defined. -/
example : Framed [0x20, 11, 0, 4, 0, 0, 1, 0] ∧ message (numAt [0x20, 11, 0, 4, 0, 0, 1, 0] 1 1) = none :=
  ⟨by unfold Framed; decide, rfl⟩

end Verif.Props
