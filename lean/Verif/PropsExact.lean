/-
Exact conditions, where C35, C40, C43, C44, C45 give sufficient ones.
C93: the result of comparing two F-SEIDs, for all F-SEIDs.  C94: which IE values survive encoding and decoding.
-/
import Verif.PropsReads
import Verif.SizeLemmas

namespace Verif.Props
open Verif Spec

/-! ### C93: comparison of F-SEIDs -/

/-- The addresses that an F-SEID has are of their families. -/
def Proper (f : FSeid) : Prop :=
  (f.ip.v4Present = true → ∃ a p, f.ip.v4 = .inet a p) ∧ (f.ip.v6Present = true → ∃ a p, f.ip.v6 = .inet6 a p)

theorem cmpNat_zero (a b : Nat) : Sockaddr.cmpNat a b = 0 ↔ a = b := by
  simp only [Sockaddr.cmpNat]; (repeat' split) <;> simp <;> omega

theorem cmpNat_neg (a b : Nat) : Sockaddr.cmpNat b a = - Sockaddr.cmpNat a b := by
  simp only [Sockaddr.cmpNat]; (repeat' split) <;> simp <;> omega

theorem cmp_inet_zero (x p y q : Nat) : (Sockaddr.inet x p).cmp (.inet y q) = 0 ↔ Sockaddr.inet x p = .inet y q := by
  have e : (Sockaddr.inet x p).cmp (.inet y q) =
    if Sockaddr.cmpNat x y ≠ 0 then Sockaddr.cmpNat x y else Sockaddr.cmpNat p q := rfl
  rw [e, Sockaddr.inet.injEq]
  split
  · next h => simp only [ne_eq, cmpNat_zero] at h; simp [cmpNat_zero, h]
  · next h => simp only [ne_eq, cmpNat_zero, Decidable.not_not] at h; simp [cmpNat_zero, h]

theorem cmp_inet6_zero (x p y q : Nat) : (Sockaddr.inet6 x p).cmp (.inet6 y q) = 0 ↔ Sockaddr.inet6 x p = .inet6 y q := by
  have e : (Sockaddr.inet6 x p).cmp (.inet6 y q) =
    if Sockaddr.cmpNat x y ≠ 0 then Sockaddr.cmpNat x y else Sockaddr.cmpNat p q := rfl
  rw [e, Sockaddr.inet6.injEq]
  split
  · next h => simp only [ne_eq, cmpNat_zero] at h; simp [cmpNat_zero, h]
  · next h => simp only [ne_eq, cmpNat_zero, Decidable.not_not] at h; simp [cmpNat_zero, h]

theorem cmp_neg (a b : Sockaddr) : b.cmp a = - a.cmp b := by
  simp only [Sockaddr.cmp]
  rw [cmpNat_neg a.family b.family]
  by_cases h : Sockaddr.cmpNat a.family b.family = 0
  · rw [h]
    simp only [Int.neg_zero, ne_eq, not_true_eq_false, if_false]
    cases a <;> cases b <;> simp only [Int.neg_zero]
    · next x p y q =>
      rw [cmpNat_neg x y, cmpNat_neg p q]
      split <;> split <;> first | rfl | (exfalso; omega)
    · next x p y q =>
      rw [cmpNat_neg x y, cmpNat_neg p q]
      split <;> split <;> first | rfl | (exfalso; omega)
  · rw [if_pos (by omega), if_pos h]

theorem addrCmp_zero {a b : FSeid} (ha : Proper a) (hb : Proper b) :
    fSeidAddrCmp a b = 0 ↔
      (a.ip.v4Present = true ∧ b.ip.v4Present = true ∧ a.ip.v4 = b.ip.v4) ∨
      (¬ (a.ip.v4Present = true ∧ b.ip.v4Present = true) ∧ a.ip.v6Present = true ∧ b.ip.v6Present = true ∧
        a.ip.v6 = b.ip.v6) := by
  unfold fSeidAddrCmp
  split
  · next h =>
    obtain ⟨x, p, hx⟩ := ha.1 h.1
    obtain ⟨y, q, hy⟩ := hb.1 h.2
    rw [hx, hy, cmp_inet_zero]
    simp [h.1, h.2]
  · next h =>
    split
    · next h6 =>
      obtain ⟨x, p, hx⟩ := ha.2 h6.1
      obtain ⟨y, q, hy⟩ := hb.2 h6.2
      rw [hx, hy, cmp_inet6_zero]
      simp only [h6.1, h6.2, true_and]
      constructor
      · intro e; exact .inr ⟨h, e⟩
      · rintro (⟨h1, h2, -⟩ | ⟨-, e⟩)
        · exact absurd ⟨h1, h2⟩ h
        · exact e
    · next h6 =>
      constructor
      · intro e; split at e <;> simp at e
      · rintro (⟨h1, h2, -⟩ | ⟨-, h1, h2, -⟩)
        · exact absurd ⟨h1, h2⟩ h
        · exact absurd ⟨h1, h2⟩ h6

/-- C93: two F-SEIDs compare as equal exactly if their SEIDs are equal, they have an address family in common, and
in the first such family (IPv4 before IPv6) the same address and port. -/
theorem C93_equal (a b : FSeid) (ha : Proper a) (hb : Proper b) :
    fSeidCmp false (some a) (some b) = 0 ↔
      a.seid = b.seid ∧
      ((a.ip.v4Present = true ∧ b.ip.v4Present = true ∧ a.ip.v4 = b.ip.v4) ∨
       (¬ (a.ip.v4Present = true ∧ b.ip.v4Present = true) ∧ a.ip.v6Present = true ∧ b.ip.v6Present = true ∧
         a.ip.v6 = b.ip.v6)) := by
  rw [← addrCmp_zero ha hb]
  simp only [fSeidCmp, Bool.false_eq_true, if_false]
  constructor
  · intro h
    split at h
    · next hn => exact absurd h hn
    · next hn =>
      refine ⟨?_, by simpa using hn⟩
      split at h
      · simp at h
      · split at h
        · simp at h
        · omega
  · rintro ⟨h1, h2⟩
    rw [if_neg (by simp [h2]), if_neg (by omega), if_neg (by omega)]

/-- C93: exchanging the arguments changes the sign, unless none of the two has an IPv4 address and not both have an
IPv6 address; then both results are "greater". -/
theorem C93_antisymmetric (a b : FSeid) :
    fSeidCmp false (some b) (some a) = - fSeidCmp false (some a) (some b) ↔
      (a.ip.v4Present = true ∨ b.ip.v4Present = true ∨ (a.ip.v6Present = true ∧ b.ip.v6Present = true)) := by
  have key : (a.ip.v4Present = true ∨ b.ip.v4Present = true ∨ (a.ip.v6Present = true ∧ b.ip.v6Present = true)) →
      fSeidAddrCmp b a = - fSeidAddrCmp a b := by
    intro h
    unfold fSeidAddrCmp
    cases h1 : a.ip.v4Present <;> cases h2 : b.ip.v4Present <;> cases h3 : a.ip.v6Present <;> cases h4 : b.ip.v6Present <;>
      simp [h1, h2, h3, h4] at h ⊢ <;> first | exact cmp_neg _ _ | rfl
  constructor
  · intro h
    cases h1 : a.ip.v4Present <;> cases h2 : b.ip.v4Present <;> cases h3 : a.ip.v6Present <;> cases h4 : b.ip.v6Present <;>
      simp [fSeidCmp, fSeidAddrCmp, h1, h2, h3, h4] at h ⊢ <;> omega
  · intro h
    simp only [fSeidCmp, Bool.false_eq_true, if_false, key h]
    split <;> split <;> (repeat' split) <;> omega

/-- The only address of an F-SEID: 4 or 6, address, port; then the SEID. -/
def HasOnly (f : FSeid) : Nat × Nat × Nat × Nat → Prop
  | (ver, addr, port, seid) =>
    f.seid = seid ∧
    ((ver = 4 ∧ f.ip.v4Present = true ∧ f.ip.v4 = .inet addr port ∧ f.ip.v6Present = false) ∨
     (ver = 6 ∧ f.ip.v6Present = true ∧ f.ip.v6 = .inet6 addr port ∧ f.ip.v4Present = false))

/-- The order by version, address, port and SEID, in this order. -/
def Earlier (x y : Nat × Nat × Nat × Nat) : Prop :=
  x.1 < y.1 ∨ x.1 = y.1 ∧ (x.2.1 < y.2.1 ∨ x.2.1 = y.2.1 ∧ (x.2.2.1 < y.2.2.1 ∨ x.2.2.1 = y.2.2.1 ∧ x.2.2.2 < y.2.2.2))

theorem Earlier.trans {x y z} (h : Earlier x y) (h' : Earlier y z) : Earlier x z := by
  unfold Earlier at *; omega

/-- C93: among F-SEIDs with exactly one address, IPv4 or IPv6, the comparison is a total order: IPv4 first, then by
address, port and SEID; only equal ones compare as equal. -/
theorem C93_total_order (a b : FSeid) (x y : Nat × Nat × Nat × Nat) (ha : HasOnly a x) (hb : HasOnly b y) :
    (fSeidCmp false (some a) (some b) = 0 ↔ x = y) ∧
    (fSeidCmp false (some a) (some b) = -1 ↔ Earlier x y) ∧
    (fSeidCmp false (some a) (some b) = 1 ↔ Earlier y x) := by
  obtain ⟨xv, xa, xp, xs⟩ := x
  obtain ⟨yv, ya, yp, ys⟩ := y
  obtain ⟨rfl, h1⟩ := ha
  obtain ⟨rfl, h2⟩ := hb
  rcases h1 with ⟨rfl, h11, h12, h13⟩ | ⟨rfl, h11, h12, h13⟩ <;> rcases h2 with ⟨rfl, h21, h22, h23⟩ | ⟨rfl, h21, h22, h23⟩
  · have := C43_order_partial a b (xa, xp, a.seid) (ya, yp, b.seid) (.inl ⟨⟨h11, h12, rfl⟩, ⟨h21, h22, rfl⟩⟩)
    refine ⟨this.1.trans ?_, this.2.1.trans ?_, this.2.2.trans ?_⟩ <;> simp [Before, Earlier]
  · simp [fSeidCmp, fSeidAddrCmp, h11, h13, h21, h23, Earlier]
  · simp [fSeidCmp, fSeidAddrCmp, h11, h13, h21, h23, Earlier]
  · have := C43_order_partial a b (xa, xp, a.seid) (ya, yp, b.seid) (.inr ⟨⟨h13, h11, h12, rfl⟩, ⟨h23, h21, h22, rfl⟩⟩)
    refine ⟨this.1.trans ?_, this.2.1.trans ?_, this.2.2.trans ?_⟩ <;> simp [Before, Earlier]

/-- Such F-SEIDs; those of osmo_pfcp_ie_f_seid_set() are. -/
example (seid a p : Nat) : HasOnly (fSeidSet seid (.inet a p)) (4, a, 0, seid) ∧
    HasOnly (fSeidSet seid (.inet6 a p)) (6, a, 0, seid) :=
  ⟨⟨rfl, .inl ⟨rfl, rfl, rfl, rfl⟩⟩, ⟨rfl, .inr ⟨rfl, rfl, rfl, rfl⟩⟩⟩
example : fSeidCmp false (some (fSeidSet 9 (.inet 7 0))) (some (fSeidSet 1 (.inet6 2 0))) = -1 :=
  (C93_total_order _ _ (4, 7, 0, 9) (6, 2, 0, 1) ⟨rfl, .inl ⟨rfl, rfl, rfl, rfl⟩⟩ ⟨rfl, .inr ⟨rfl, rfl, rfl, rfl⟩⟩).2.1.2
    (.inl (by decide))
example : fSeidCmp false (some { seid := 3, ip := { v4Present := true, v4 := .inet 1 0 } })
    (some { seid := 3, ip := { v4Present := true, v4 := .inet 1 0, v6Present := true, v6 := .inet6 5 0 } }) = 0 :=
  (C93_equal _ _ ⟨fun _ => ⟨_, _, rfl⟩, fun h => by cases h⟩ ⟨fun _ => ⟨_, _, rfl⟩, fun _ => ⟨_, _, rfl⟩⟩).2
    ⟨rfl, .inl ⟨rfl, rfl, rfl⟩⟩
example : ¬ fSeidCmp false (some { seid := 1 }) (some { seid := 2 }) = - fSeidCmp false (some { seid := 2 }) (some { seid := 1 }) := by
  rw [C93_antisymmetric]; simp

/-! ### C94: which values survive -/

/-- A name that survives: not longer than 253, no NUL, and no empty label, but for the last one. -/
def CarriedName (s : List UInt8) : Prop :=
  s.length ≤ 253 ∧ (0 : UInt8) ∉ s ∧ ∀ l ∈ (labelsOf s).dropLast, l ≠ []

/-- A value that survives encoding and decoding. -/
def Carried : IeVal → Prop
  | .networkInst s => CarriedName s
  | .nodeId (.fqdn s) => CarriedName s
  | v => InRange v

theorem first_empty (ls : List (List UInt8)) :
    (∀ l ∈ ls, l ≠ []) ∨ ∃ pre post, ls = pre ++ [] :: post ∧ ∀ l ∈ pre, l ≠ [] := by
  induction ls with
  | nil => exact .inl nofun
  | cons l ls ih =>
    by_cases hl : l = []
    · exact .inr ⟨[], ls, by rw [hl]; rfl, nofun⟩
    · rcases ih with h | ⟨pre, post, rfl, h⟩
      · left
        intro x hx
        rcases List.mem_cons.1 hx with rfl | hx
        · exact hl
        · exact h x hx
      · refine .inr ⟨l :: pre, post, rfl, ?_⟩
        intro x hx
        rcases List.mem_cons.1 hx with rfl | hx
        · exact hl
        · exact h x hx

theorem dotted_last_empty (pre : List (List UInt8)) : dotted (pre ++ [[]]) = pre.flatMap fun l => l ++ [46] := by
  induction pre with
  | nil => rfl
  | cons l pre ih =>
    have : ∃ x xs, pre ++ [[]] = x :: xs := by cases pre <;> exact ⟨_, _, rfl⟩
    obtain ⟨x, xs, hx⟩ := this
    rw [List.cons_append, List.flatMap_cons, ← ih, hx]
    simp [dotted]

theorem cstr_le (s : List UInt8) : (cstr s).length ≤ s.length := (List.takeWhile_sublist _).length_le

theorem cstr_noNul (s : List UInt8) : (0 : UInt8) ∉ cstr s := by
  intro h
  have := List.all_takeWhile (p := fun x : UInt8 => decide (x ≠ 0)) (l := s)
  rw [List.all_eq_true] at this
  have := this 0 h
  simp at this

/-- The decoder of names, on encoded names. -/
theorem decName_iff (s rest : List UInt8) :
    decName ⟨labelOctets (labelsOf s) ++ rest, (labelOctets (labelsOf s)).length⟩ = .ok s ↔ CarriedName s := by
  have hlen := labelOctets_length s
  have hlt : ∀ l ∈ labelsOf s, l.length ≤ s.length := fun l m => mem_labelsOf_length m
  simp only [decName]
  by_cases hl : s.length ≤ 253
  · rw [if_neg (by omega)]
    have e := (apnToStr_append (labelOctets (labelsOf s)).length (labelOctets (labelsOf s)) rest rfl).1
    rw [e]
    rcases first_empty (labelsOf s) with hne | ⟨pre, post, hp, hne⟩
    · have e2 := apnToStr_labels (labelsOf s) (fun l m => ⟨hne l m, by have := hlt l m; omega⟩) []
      rw [List.append_nil] at e2
      rw [e2, dotted_labelsOf]
      simp only [Res.bind_ok']
      rw [if_neg (by omega)]
      constructor
      · intro h
        simp only [Res.ok.injEq] at h
        exact ⟨hl, by rw [← h]; exact cstr_noNul s, fun l m => hne l (List.dropLast_subset _ m)⟩
      · rintro ⟨-, hz, -⟩
        rw [cstr_of_noNul hz]
    · have hoct : labelOctets (labelsOf s) = labelOctets pre ++ 0 :: labelOctets post := by
        rw [hp]; simp [labelOctets, octet]
      have e2 := apn_terminated pre (fun l m => ⟨hne l m, by
        have := hlt l (by rw [hp]; simp [m]); omega⟩) (labelOctets post)
      rw [← hoct] at e2
      rw [e2]
      simp only [Res.bind_ok']
      have hfl : (pre.flatMap fun l => l ++ [46]).length = (labelOctets pre).length := by
        simp [labelOctets, List.length_flatMap]
      have hsum : (labelOctets pre).length + 1 + (labelOctets post).length = s.length + 1 := by
        rw [← hlen, hoct]; simp; omega
      rw [if_neg (by omega)]
      by_cases hpost : post = []
      · subst hpost
        have hs : s = pre.flatMap fun l => l ++ [46] := by
          rw [← dotted_last_empty, ← hp, dotted_labelsOf]
        rw [← hs]
        constructor
        · intro h
          simp only [Res.ok.injEq] at h
          refine ⟨hl, by rw [← h]; exact cstr_noNul s, ?_⟩
          rw [hp]
          simpa using hne
        · rintro ⟨-, hz, -⟩
          rw [cstr_of_noNul hz]
      · constructor
        · intro h
          simp only [Res.ok.injEq] at h
          have h1 := cstr_le (pre.flatMap fun l => l ++ [46])
          rw [h, hfl] at h1
          obtain ⟨x, xs, rfl⟩ := List.exists_cons_of_ne_nil hpost
          have : 1 ≤ (labelOctets (x :: xs)).length := by simp [labelOctets]
          omega
        · rintro ⟨-, -, h⟩
          refine absurd rfl (h [] ?_)
          rw [hp, List.dropLast_append_of_ne_nil (by simp)]
          obtain ⟨x, xs, rfl⟩ := List.exists_cons_of_ne_nil hpost
          simp
  · rw [if_pos (by omega)]
    simp only [CarriedName]
    constructor
    · intro h; simp at h
    · intro h; exact absurd h.1 hl

theorem carriedName_of_good {s : List UInt8} (h : GoodName s) : CarriedName s := by
  refine ⟨h.1, h.2.1, ?_⟩
  intro l m
  rcases h.2.2 with rfl | h2
  · simp [labelsOf] at m
  · exact h2 l (List.dropLast_subset _ m)

/-- C94: an IE value survives, that is, its encoder succeeds and the decoder returns the same value, exactly if it is
`Carried`; whatever it is.  (`rest`: what follows in memory, with a NUL somewhere as Activate Predefined Rules needs;
there is room for the longest IE.) -/
theorem C94_survives (v : IeVal) (cap : Nat) (room : 300 ≤ cap) (rest : List UInt8) (hr : 0 ∈ rest) :
    (∃ b, ieEnc v { cap := cap, data := [] } = .ok b ∧ ieDec v.kind (b.data ++ rest) b.data.length = .ok v) ↔
      Carried v := by
  have nameEnc : ∀ (pre s : List UInt8) (b : Msgb), encName s ⟨cap, pre⟩ = .ok b → b.data = pre ++ labelOctets (labelsOf s) := by
    intro pre s b h
    simp only [encName, apnFromStr] at h
    split at h
    · simp at h
    · next o ho =>
      split at ho
      · simp at ho
      · simp only [Option.some.injEq] at ho
        simp only [Msgb.put] at h
        split at h
        · simp only [Out.ok.injEq] at h
          rw [← h, ← ho, apnLabels_nil]
        · simp at h
  constructor
  · rintro ⟨b, h1, h2⟩
    obtain ⟨-, h3 | ⟨s, rfl⟩ | ⟨s, rfl⟩⟩ := dec_inRange _ _ _ _ h2
    · unfold Carried
      split
      · exact carriedName_of_good h3
      · exact carriedName_of_good h3
      · exact h3
    · have := nameEnc [] s b h1
      rw [List.nil_append] at this
      rw [this] at h2
      have h4 : (decName ⟨labelOctets (labelsOf s) ++ rest, (labelOctets (labelsOf s)).length⟩).bind
        (fun x => .ok (IeVal.networkInst x)) = .ok (.networkInst s) := h2
      obtain ⟨x, h5, h6⟩ := Res.bind_eq_ok h4
      simp only [Res.ok.injEq, IeVal.networkInst.injEq] at h6
      subst h6
      exact (decName_iff _ rest).1 h5
    · have h1 : ((⟨cap, []⟩ : Msgb).num 1 2).bind (fun b => encName s b) = .ok b := h1
      obtain ⟨b1, h3, h4⟩ := Out.bind_eq_ok h1
      have hb1 : b1 = ⟨cap, [2]⟩ := by
        simp only [Msgb.num, Msgb.put] at h3
        split at h3
        · simp only [Out.ok.injEq] at h3
          rw [← h3]; rfl
        · simp at h3
      subst hb1
      have := nameEnc [2] s b h4
      rw [this] at h2
      have hn := num1_cons 2 (labelOctets (labelsOf s)) rest
      simp only [curAt] at hn
      have h5 : ieDec .nodeId (2 :: labelOctets (labelsOf s) ++ rest) (2 :: labelOctets (labelsOf s)).length =
        .ok (.nodeId (.fqdn s)) := h2
      have h6 : ((decNodeId (curAt (2 :: labelOctets (labelsOf s)) rest)).bind fun x => .ok (IeVal.nodeId x)) =
        .ok (.nodeId (.fqdn s)) := h5
      simp only [decNodeId, num1_cons, Res.bind_ok', UInt8.reduceToNat, Nat.reduceEqDiff, if_false, if_true] at h6
      obtain ⟨x, h7, h8⟩ := Res.bind_eq_ok h6
      obtain ⟨y, h9, h10⟩ := Res.bind_eq_ok h7
      simp only [Res.ok.injEq] at h8 h10
      subst h10
      simp only [IeVal.nodeId.injEq, NodeId.fqdn.injEq] at h8
      subst h8
      exact (decName_iff _ rest).1 h9
  · intro h
    unfold Carried at h
    split at h
    · next s =>
      have hl := labelOctets_length s
      have h1 := h.1
      have e := Puts.name s ⟨cap, []⟩ (by simp only [List.length_nil]; omega)
      refine ⟨_, e, ?_⟩
      have e2 := (decName_iff s rest).2 h
      show (decName ⟨[] ++ labelOctets (labelsOf s) ++ rest, ([] ++ labelOctets (labelsOf s)).length⟩).bind
        (fun x => .ok (IeVal.networkInst x)) = _
      rw [List.nil_append, e2]
      rfl
    · next s =>
      have hl := labelOctets_length s
      have h1 := h.1
      have e := Puts.name s ⟨cap, [2]⟩ (by simp only [List.length_cons, List.length_nil]; omega)
      have e1 : (⟨cap, []⟩ : Msgb).num 1 2 = .ok ⟨cap, [2]⟩ := by
        simp only [Msgb.num, Msgb.put]
        rw [if_pos (by simp [storeBE]; omega)]
        rfl
      refine ⟨_, show ((⟨cap, []⟩ : Msgb).num 1 2).bind (fun b => encName s b) = _ by rw [e1]; exact e, ?_⟩
      have e2 := (decName_iff s rest).2 h
      show ((decNodeId (curAt (2 :: labelOctets (labelsOf s)) rest)).bind fun x => .ok (IeVal.nodeId x)) = _
      simp only [decNodeId, num1_cons, Res.bind_ok', UInt8.reduceToNat, Nat.reduceEqDiff, if_false, if_true]
      simp only [curAt]
      rw [e2]
      rfl
    · have hm := wire_le v h
      have : kindMost v.kind ≤ 300 := by cases v.kind <;> decide
      exact C35_round_trip v h cap (by omega) rest fun _ => hr

/-- A name with a dot at the end survives, one with two dots in a row does not. -/
example : Carried (.nodeId (.fqdn [97, 46])) ∧ ¬ Carried (.networkInst [97, 46, 46, 98]) :=
  ⟨⟨by decide, by decide, by decide⟩, fun h => absurd (h.2.2 [] (by decide)) (by simp)⟩
/-- A Node ID with an address of the wrong family does not, nor does one with a port; an F-TEID does. -/
example : ¬ Carried (.nodeId (.v4 (.inet6 1 0))) ∧ ¬ Carried (.nodeId (.v4 (.inet 1 8805))) ∧
    Carried (.fTeid (.fixed 7 { v4Present := true, v4 := .inet 1 0 })) :=
  ⟨fun ⟨_, _, h⟩ => (by cases h), fun ⟨_, _, h⟩ => (by cases h), ⟨by decide, ⟨_, by decide, rfl⟩, rfl⟩⟩

/-! ### C44, C45: exact conditions -/

/-- C44: for all sets of addresses and outputs, osmo_pfcp_ip_addrs_get_str() writes every output that is asked for,
exactly if the set has no IPv4 address or not both outputs are asked for. -/
theorem C44_get_str_exactly (src : IpAddrs) (v4 v6 : Option IpAddrs.AddrStr) (hg : GoodIps src)
    (h6 : ∀ a, v6 ≠ some (.text a)) (n6 : v6 ≠ some .empty) :
    IpAddrs.getStr v4 v6 src =
      .ok (v4.map (fun _ => if src.v4Present then .text src.v4 else .empty),
           v6.map (fun _ => if src.v6Present then .text src.v6 else .empty)) ↔
    (v6 = none ∨ src.v4Present = false ∨ v4 = none) := by
  constructor
  · intro h
    by_cases hp : src.v4Present = true
    · obtain ⟨n, -, hn⟩ : IsV4 src.v4 := by have := hg.1; rwa [if_pos hp] at this
      cases v4 with
      | none => exact .inr (.inr rfl)
      | some x =>
        cases v6 with
        | none => exact .inl rfl
        | some y =>
          simp only [IpAddrs.getStr, hp, if_true, hn, IpAddrs.strFrom, Option.map_some, Out.ok.injEq, Prod.mk.injEq, true_and,
            Option.some.injEq] at h
          split at h
          · exact absurd (congrArg some h) (h6 _)
          · exact absurd (congrArg some h) n6
    · exact .inr (.inl (by simpa using hp))
  · exact C44_get_str_partial src v4 v6 hg

example : (some (IpAddrs.AddrStr.garbage 2)) ≠ some .empty ∧
    GoodIps { v4Present := true, v4 := .inet 1 0, v6Present := true, v6 := .inet6 1 0 } :=
  ⟨by decide, ⟨_, by decide, rfl⟩, ⟨_, by decide, rfl⟩⟩

/-- C45: a socket address survives being converted to a Node ID and back exactly if it is IPv4 or IPv6 and the output
argument has the same family before the call; otherwise the conversion fails. -/
theorem C45_exactly (os out : Sockaddr) :
    ((∃ n, nodeIdFromSockaddr os = .ok n ∧ nodeIdToSockaddr n out = .ok os) ↔
      (os.isInet = true ∧ out.isInet = true) ∨ (os.isInet6 = true ∧ out.isInet6 = true)) ∧
    ∀ n x, nodeIdFromSockaddr os = .ok n → nodeIdToSockaddr n out = .ok x → x = os := by
  cases os <;> cases out <;> simp [nodeIdFromSockaddr, nodeIdToSockaddr, Sockaddr.isInet, Sockaddr.isInet6] <;>
    (rintro n x rfl h; cases h <;> rfl)

example : ∃ n, nodeIdFromSockaddr (.inet6 5 8805) = .ok n ∧ nodeIdToSockaddr n (.inet6 0 0) = .ok (.inet6 5 8805) :=
  (C45_exactly _ _).1.2 (.inr ⟨rfl, rfl⟩)

end Verif.Props
