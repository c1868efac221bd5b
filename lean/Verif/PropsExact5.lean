import Verif.PropsIes
import Verif.PropsPeer
import Verif.PropsConform

/-!
Exact companions of partial claims: C43 (comparison of F-SEIDs), C60 (when a response is handled with a NULL
pointer), C81 (the version of a received message).
-/
namespace Verif.Props
open Verif Spec

/-! ### C43 -/

/-- Both have an IPv4 address, and it is the same; or not both have one, but both have an IPv6 address and it is the same. -/
def SameAddress (a b : FSeid) : Prop :=
  (a.ip.v4Present = true ∧ b.ip.v4Present = true ∧ a.ip.v4 = b.ip.v4) ∨
  (¬ (a.ip.v4Present = true ∧ b.ip.v4Present = true) ∧ a.ip.v6Present = true ∧ b.ip.v6Present = true ∧ a.ip.v6 = b.ip.v6)

/-- Both have an IPv4 address, or both have an IPv6 address. -/
def ShareFamily (a b : FSeid) : Prop :=
  (a.ip.v4Present = true ∧ b.ip.v4Present = true) ∨ (a.ip.v6Present = true ∧ b.ip.v6Present = true)

/-- One of two F-SEIDs has an IPv4 address. -/
def SomeV4 (a b : FSeid) : Prop := a.ip.v4Present = true ∨ b.ip.v4Present = true

theorem cmp_zero4 {x y : Sockaddr} (hx : IsV4 x) (hy : IsV4 y) : x.cmp y = 0 ↔ x = y := by
  obtain ⟨n, _, rfl⟩ := hx
  obtain ⟨m, _, rfl⟩ := hy
  simp only [Sockaddr.cmp, Sockaddr.family, Sockaddr.cmpNat, Sockaddr.inet.injEq]
  (repeat' split) <;> simp_all <;> omega

theorem cmp_zero6 {x y : Sockaddr} (hx : IsV6 x) (hy : IsV6 y) : x.cmp y = 0 ↔ x = y := by
  obtain ⟨n, _, rfl⟩ := hx
  obtain ⟨m, _, rfl⟩ := hy
  simp only [Sockaddr.cmp, Sockaddr.family, Sockaddr.cmpNat, Sockaddr.inet6.injEq]
  (repeat' split) <;> simp_all <;> omega

theorem cmpNat_swap (a b : Nat) : Sockaddr.cmpNat a b = - Sockaddr.cmpNat b a := by
  unfold Sockaddr.cmpNat
  (repeat' split) <;> omega

theorem cmp_swap (x y : Sockaddr) : x.cmp y = - y.cmp x := by
  cases x <;> cases y <;> simp only [Sockaddr.cmp, Sockaddr.family, Sockaddr.cmpNat] <;>
    (repeat' split) <;> omega

/-- C43, exactly: two F-SEIDs compare as equal if and only if they have the same SEID and the same address in the family
they share (IPv4 if both have an IPv4 address).  In particular, an F-SEID compares as equal to a copy of itself if and only if
it has an address. -/
theorem C43_equal_exactly {a b : FSeid} (ha : InRange (.fSeid a)) (hb : InRange (.fSeid b)) :
    fSeidCmp false (some a) (some b) = 0 ↔ a.seid = b.seid ∧ SameAddress a b := by
  obtain ⟨-, ha4, ha6⟩ := ha
  obtain ⟨-, hb4, hb6⟩ := hb
  have hz : fSeidAddrCmp a b = 0 ↔ SameAddress a b := by
    unfold fSeidAddrCmp SameAddress
    cases h1 : a.ip.v4Present <;> cases h2 : b.ip.v4Present <;>
      cases h3 : a.ip.v6Present <;> cases h4 : b.ip.v6Present <;>
      simp only [h1, h2, h3, h4, Bool.false_eq_true, if_true, if_false] at ha4 ha6 hb4 hb6 <;>
      simp <;> first | exact cmp_zero4 ha4 hb4 | exact cmp_zero6 ha6 hb6
  simp only [fSeidCmp, Bool.false_eq_true, if_false]
  rw [← hz]
  (repeat' split) <;> constructor <;> intro h <;> first | omega | simp_all

/-- C43, exactly: the two ways to compare two F-SEIDs contradict each other if and only if neither has an IPv4 address and
one has no IPv6 address either: each is then "greater" than the other. -/
theorem C43_antisymmetric_exactly (a b : FSeid) :
    (fSeidCmp false (some a) (some b) = - fSeidCmp false (some b) (some a) ↔ ShareFamily a b ∨ SomeV4 a b ) := by
  obtain ⟨s, p4, a4, p6, a6⟩ := a
  obtain ⟨t, q4, b4, q6, b6⟩ := b
  simp only [fSeidCmp, Bool.false_eq_true, if_false, fSeidAddrCmp, ShareFamily, SomeV4]
  have h4 := cmp_swap a4 b4
  have h6 := cmp_swap a6 b6
  cases p4 <;> cases q4 <;> cases p6 <;> cases q6 <;>
    simp <;> (repeat' split) <;> omega

/-- What an F-SEID with one address is sorted by: the family, the address and the SEID. -/
def sortKey (f : FSeid) : Nat × Nat × Nat :=
  match f.ip.v4Present, f.ip.v4, f.ip.v6 with
  | true, .inet a _, _ => (4, a, f.seid)
  | _, _, .inet6 a _ => (6, a, f.seid)
  | _, _, _ => (0, 0, f.seid)

/-- It has exactly one address. -/
def OneAddress (f : FSeid) : Prop := f.ip.v4Present ≠ f.ip.v6Present

/-- C43, among all F-SEIDs with exactly one address each (such as those of osmo_pfcp_ie_f_seid_set()): the comparison is
the lexical order by family (IPv4 first), address and SEID; a strict total order, in which only same F-SEIDs are equal. -/
theorem C43_one_address {a b : FSeid} (ha : InRange (.fSeid a)) (hb : InRange (.fSeid b)) (h1 : OneAddress a) (h2 : OneAddress b) :
    (fSeidCmp false (some a) (some b) = 0 ↔ a = b) ∧
    (fSeidCmp false (some a) (some b) = -1 ↔ Before (sortKey a) (sortKey b)) ∧
    (fSeidCmp false (some a) (some b) = 1 ↔ Before (sortKey b) (sortKey a)) := by
  obtain ⟨s, p4, a4, p6, a6⟩ := a
  obtain ⟨t, q4, b4, q6, b6⟩ := b
  obtain ⟨-, ha4, ha6⟩ := ha
  obtain ⟨-, hb4, hb6⟩ := hb
  simp only [OneAddress, ne_eq] at h1 h2
  cases p4 <;> cases p6 <;> cases q4 <;> cases q6 <;> simp at h1 h2 <;>
    simp only [Bool.false_eq_true, if_true, if_false] at ha4 ha6 hb4 hb6 <;>
    (try (obtain ⟨n, _, rfl⟩ := ha4)) <;> (try (obtain ⟨n, _, rfl⟩ := ha6)) <;>
    (try (obtain ⟨m, _, rfl⟩ := hb4)) <;> (try (obtain ⟨m, _, rfl⟩ := hb6)) <;>
    (try subst ha4) <;> (try subst ha6) <;> (try subst hb4) <;> (try subst hb6) <;>
    simp [fSeidCmp, fSeidAddrCmp, Sockaddr.cmp, Sockaddr.family, Sockaddr.cmpNat, sortKey, Before] <;>
    refine ⟨?_, ?_, ?_⟩ <;> (repeat' split) <;> simp <;> omega

/-- Neither theorem is empty: F-SEIDs with IPv4, with IPv6, with both, and with none. -/
example : let v4 : FSeid := { seid := 1, ip := { v4Present := true, v4 := .inet 9 0 } }
    let v6 : FSeid := { seid := 1, ip := { v6Present := true, v6 := .inet6 2 0 } }
    let both : FSeid := { seid := 1, ip := { v4Present := true, v4 := .inet 9 0, v6Present := true, v6 := .inet6 2 0 } }
    fSeidCmp false (some v4) (some v6) = -1 ∧ fSeidCmp false (some v6) (some v4) = 1 ∧
    fSeidCmp false (some v4) (some both) = 0 ∧ fSeidCmp false (some v6) (some both) = 0 ∧
    fSeidCmp false (some v6) (some { seid := 0 }) = 1 ∧ fSeidCmp false (some { seid := 0 }) (some v6) = 1 ∧
    Before (sortKey v4) (sortKey v6) := by
  refine ⟨by decide, by decide, by decide, by decide, by decide, by decide, ?_⟩
  unfold Before; decide

example : InRange (.fSeid { seid := 1, ip := { v4Present := true, v4 := .inet 9 0 } }) ∧
    OneAddress { seid := 1, ip := { v4Present := true, v4 := .inet 9 0 } } ∧
    InRange (.fSeid { seid := 1, ip := { v6Present := true, v6 := .inet6 2 0 } }) ∧
    OneAddress { seid := 1, ip := { v6Present := true, v6 := .inet6 2 0 } } :=
  ⟨⟨by decide, ⟨_, by decide, rfl⟩, rfl⟩, nofun, ⟨by decide, rfl, ⟨_, by decide, rfl⟩⟩, nofun⟩

/-! ### C60 -/

/-- osmo_pfcp_endpoint_invalidate_ctx() was called for the FSM instance `fi`, after osmo_pfcp_endpoint_tx() had returned
success for the message `id` (the log has the latest first). -/
def InvalidatedAfter (fi id : Nat) (log : List Event) : Prop :=
  ∃ later earlier, log = later ++ .invalidated fi :: earlier ∧ Event.returned id none ∈ earlier

theorem returnedIn_iff {id : Nat} : ∀ {log : List Event}, returnedIn id log = true ↔ Event.returned id none ∈ log
  | [] => by simp [returnedIn]
  | e :: l => by
    have ih := returnedIn_iff (id := id) (log := l)
    unfold returnedIn
    split
    · rename_i h; cases h
    · rename_i i l' h
      cases h
      simp only [Bool.or_eq_true, decide_eq_true_eq, ih, List.mem_cons, Event.returned.injEq, and_true]
      constructor
      · rintro (h | h)
        · exact .inl h.symm
        · exact .inr h
      · rintro (h | h)
        · exact .inl h.symm
        · exact .inr h
    · rename_i h1 h2
      cases h2
      rw [ih, List.mem_cons]
      constructor
      · exact .inr
      · rintro (h | h)
        · exact absurd h.symm (h1 id)
        · exact h

theorem ctxAfter_peer {id fi : Nat} {c : Ctx} (hc : c.peerFi = some fi) : ∀ (log : List Event),
    (InvalidatedAfter fi id log ∧ (ctxAfter id c log).peerFi = none) ∨
    (¬ InvalidatedAfter fi id log ∧ (ctxAfter id c log).peerFi = some fi)
  | [] => .inr ⟨(by rintro ⟨a, b, h, _⟩; cases a <;> cases h), hc⟩
  | e :: l => by
    have ih := ctxAfter_peer (id := id) hc l
    have up : InvalidatedAfter fi id l → InvalidatedAfter fi id (e :: l) := by
      rintro ⟨a, b, h, h'⟩
      exact ⟨e :: a, b, by rw [h]; rfl, h'⟩
    have down : InvalidatedAfter fi id (e :: l) → (e = .invalidated fi ∧ returnedIn id l = true) ∨ InvalidatedAfter fi id l := by
      rintro ⟨a, b, h, h'⟩
      cases a with
      | nil => cases h; exact .inl ⟨rfl, returnedIn_iff.2 h'⟩
      | cons x a => cases h; exact .inr ⟨a, b, rfl, h'⟩
    by_cases hi : ∃ f, e = .invalidated f
    · obtain ⟨f, rfl⟩ := hi
      simp only [ctxAfter]
      by_cases hr : returnedIn id l = true
      · rw [if_pos hr]
        rcases ih with ⟨h1, h2⟩ | ⟨h1, h2⟩
        · exact .inl ⟨up h1, by simp [Ctx.without, h2]⟩
        · by_cases hf : f = fi
          · subst hf
            exact .inl ⟨⟨[], l, rfl, returnedIn_iff.1 hr⟩, by simp [Ctx.without, h2]⟩
          · refine .inr ⟨fun h => ?_, by simp [Ctx.without, h2, show ¬ fi = f from fun h => hf h.symm]⟩
            rcases down h with ⟨h3, _⟩ | h3
            · cases h3; exact hf rfl
            · exact h1 h3
      · rw [if_neg hr]
        rcases ih with ⟨h1, h2⟩ | ⟨h1, h2⟩
        · exact .inl ⟨up h1, h2⟩
        · refine .inr ⟨fun h => ?_, h2⟩
          rcases down h with ⟨_, h3⟩ | h3
          · exact hr h3
          · exact h1 h3
    · have he : ctxAfter id c (e :: l) = ctxAfter id c l := by
        cases e <;> first | rfl | exact absurd ⟨_, rfl⟩ hi
      rw [he]
      rcases ih with ⟨h1, h2⟩ | ⟨h1, h2⟩
      · exact .inl ⟨up h1, h2⟩
      · refine .inr ⟨fun h => ?_, h2⟩
        rcases down h with ⟨h3, _⟩ | h3
        · exact hi ⟨_, h3⟩
        · exact h1 h3

/-- C60, exactly: when a pending Association Setup Request of a CP peer gets a response, or none, resp_cb() dereferences a
NULL pointer if and only if the application has called osmo_pfcp_endpoint_invalidate_ctx() for this CP peer's FSM instance
since the request was accepted for transmission; otherwise the response is handled without failing. -/
theorem C60_response_exactly {ep : Ep} (h : Reached ep) {e} (he : e ∈ ep.reqs) {fi r seq}
    (hr : AssocReqOf fi r e.id seq ep.log) (resp : Option PMsg) :
    (ep.assocResp e.m.ctx resp .ok = .ub ∧ InvalidatedAfter fi e.id ep.log) ∨
    ((∃ ep', ep.assocResp e.m.ctx resp .ok = .ok ep') ∧ ¬ InvalidatedAfter fi e.id ep.log) := by
  have hae := assoc_entry h hr
  obtain ⟨n1, t1, q, hq, _, _, _, hf, hc⟩ := hr
  obtain ⟨m, hm, hrel, _⟩ := h.both.use.queued e (List.mem_append_left _ he)
  obtain ⟨n1', t1', hm⟩ := live_passed hm
  cases h.both.use.one _ _ _ _ _ _ _ hm hq
  have hnow := congrArg Ctx.peerFi hrel.now
  rcases ctxAfter_peer (id := e.id) hf ep.log with ⟨h1, h2⟩ | ⟨h1, h2⟩
  · refine .inl ⟨?_, h1⟩
    unfold Ep.assocResp
    rw [hnow, h2]
  · refine .inr ⟨?_, h1⟩
    obtain ⟨p, hp, hst, _⟩ := h.both.peer.pend fi e he hae (by simp)
    unfold Ep.assocResp
    rw [hnow, h2]
    dsimp only
    rw [hp]
    dsimp only
    cases resp with
    | none => exact ⟨_, rfl⟩
    | some m =>
      dsimp only
      split
      · exact ⟨_, rfl⟩
      · rw [if_neg (by simp [hst])]
        split
        · exact ⟨_, rfl⟩
        · exact ⟨_, rfl⟩

/-! ### C81 -/

/-- Two messages that differ in the version at most (of the first octet, the high three bits). -/
def SameButVersion (m m' : List UInt8) : Prop :=
  m.drop 1 = m'.drop 1 ∧ ∃ a b : UInt8, m[0]? = some a ∧ m'[0]? = some b ∧ a.toNat % 32 = b.toNat % 32

/-- This message with another version. -/
def withVersion (x : PMsg) (v : Nat) : PMsg := { x with h := { x.h with version := v } }

theorem same_read_version {remote : Sockaddr} {m m' : List UInt8} {x : PMsg} (h : SameButVersion m m') (hx : IsReadAs remote m x) :
    IsReadAs remote m' (withVersion x (numAt m' 0 1 / 32)) := by
  obtain ⟨hd, a, b, ha, hb, h1⟩ := h
  have hl : m'.length = m.length := by
    have hd' := congrArg List.length hd
    have h3 : m.length ≠ 0 := by intro h0; rw [List.length_eq_zero_iff.1 h0] at ha; cases ha
    have h4 : m'.length ≠ 0 := by intro h0; rw [List.length_eq_zero_iff.1 h0] at hb; cases hb
    simp only [List.length_drop] at hd'
    omega
  have e0 : bitAt m' 0 = bitAt m 0 := by
    rw [bitAt_first ha 0 (by omega), bitAt_first hb 0 (by omega)]
    congr 1; simp; omega
  have e1 : bitAt m' 1 = bitAt m 1 := by
    rw [bitAt_first ha 1 (by omega), bitAt_first hb 1 (by omega)]
    congr 1; simp; omega
  have en : ∀ i k, 1 ≤ i → numAt m' i k = numAt m i k := by
    intro i k hi
    rw [numAt_tail m i k hi, numAt_tail m' i k hi, hd]
  have eh : announcedHeader m' = announcedHeader m := by simp only [announcedHeader, e0]
  have el : announcedLength m' = announcedLength m := by
    have := en 2 2 (by omega)
    unfold numAt at this
    simp only [announcedLength, this]
  have edrop : m'.drop (announcedHeader m') = m.drop (announcedHeader m) := by
    have hc := announcedHeader_cases m
    rw [eh]
    have : ∀ k, 1 ≤ k → m'.drop k = m.drop k := by
      intro k hk
      rw [show k = 1 + (k - 1) from by omega, ← List.drop_drop, ← List.drop_drop, hd]
    exact this _ (by omega)
  refine ⟨?_, hx.remote, hx.rx, ?_, hx.kind, ?_⟩
  · have := hx.framed
    unfold Framed at this ⊢
    rw [hl, eh, el, e0, e1]
    exact this
  · have e4 : numAt m' (if bitAt m 0 = true then 12 else 4) 3 = numAt m (if bitAt m 0 = true then 12 else 4) 3 :=
      en _ _ (by split <;> omega)
    have hh := hx.header
    simp only [withVersion, hh, headerAt, e0, e1, en 1 1 (by omega), optAt, en 4 8 (by omega), en 15 1 (by omega), e4]
  · have := hx.ies
    unfold BodyMeans at this ⊢
    rw [en 1 1 (by omega), edrop]
    exact this

/-- C81: the version makes no difference either, except that it is reported: with another version, a message is read in the
same way. -/
theorem C81_version_ignored (remote : Sockaddr) (m m' : List UInt8) (h : SameButVersion m m') :
    (∀ x, IsReadAs remote m x → IsReadAs remote m' (withVersion x (numAt m' 0 1 / 32))) ∧
    (∀ x, IsReadAs remote m' x → IsReadAs remote m (withVersion x (numAt m 0 1 / 32))) := by
  refine ⟨fun x => same_read_version h, fun x => same_read_version ?_⟩
  obtain ⟨hd, a, b, ha, hb, h1⟩ := h
  exact ⟨hd.symm, b, a, hb, ha, h1.symm⟩

/-- The same message with version 1 and 7. -/
example : SameButVersion exModResp (0xe0 :: exModResp.tail) := ⟨rfl, 0x20, 0xe0, rfl, rfl, rfl⟩

end Verif.Props
