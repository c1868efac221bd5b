/-
More property theorems that say exactly what the code does where the claim, as stated, is false of it: C73 (which IEs ordered
decoding loses), C12 (what ordered decoding guarantees of mandatory IEs), C49 (what a response is matched by).
-/
import Verif.PropsOrd
import Verif.PropsEndpoint4

namespace Verif.Spec
open Verif
variable {A : Type}

/-- The IEs are spread out as the table defines them: those of one entry after those of another, as in the table; more than one
only for an entry for a repeated IE, and those one directly behind the other; IEs that the table does not define (not `known`)
only elsewhere. -/
inductive Spread (known : TagInst → Prop) : List (Coding A) → List (TagInst × List UInt8) → Prop
  | nil {u} : (∀ x ∈ u, ¬ known x.1) → Spread known [] u
  | absent {c cs l} : Spread known cs l → Spread known (c :: cs) l
  | present {c cs u x l l'} : (∀ x ∈ u, ¬ known x.1) → x.1 = c.ti → (∀ y ∈ l, y.1 = c.ti) →
      ((∀ mx mn, c.kind ≠ .multi mx mn) → l = []) → Spread known cs l' → Spread known (c :: cs) (u ++ x :: (l ++ l'))

end Verif.Spec

namespace Verif.Props
open Verif Spec
variable {A : Type}

/-! ## C73 -/

theorem memberValues_length {c : Coding A} {n l vs} (h : memberValues c n l = .ok vs) : vs.length = l.length :=
  (memberValues_ok h).1.length.symm

abbrev tally (t : TagInst) (l : List (TagInst × List UInt8)) : Nat := l.countP fun x => decide (x.1 = t)

theorem tally_append {t l l'} : tally t (l ++ l') = tally t l + tally t l' := List.countP_append
theorem tally_zero {t : TagInst} {l : List (TagInst × List UInt8)} (h : ∀ x ∈ l, x.1 ≠ t) : tally t l = 0 := by
  rw [tally, List.countP_eq_zero]; intro x hx; simpa using h x hx
theorem tally_all {t : TagInst} {l : List (TagInst × List UInt8)} (h : ∀ x ∈ l, x.1 = t) : tally t l = l.length := by
  rw [tally, List.countP_eq_length]; intro x hx; simpa using h x hx
theorem tally_pos {x : TagInst × List UInt8} {l} (h : x ∈ l) : 0 < tally x.1 l := by
  rw [tally, List.countP_pos_iff]; exact ⟨x, h, by simp⟩
theorem tally_none {t : TagInst} {l : List (TagInst × List UInt8)} (h : tally t l = 0) : ∀ x ∈ l, x.1 ≠ t := by
  rw [tally, List.countP_eq_zero] at h; intro x hx; simpa using h x hx

/-- What an entry does with the IEs: there are none for it, or it takes the first and maybe those directly behind. -/
theorem inOrder_cons {c : Coding A} {cs l s} (h : inOrder (c :: cs) l = .ok s) :
    ((∀ x ∈ l, x.1 ≠ c.ti) ∧ ∃ s', s = [] :: s' ∧ inOrder cs l = .ok s') ∨
    (∃ u x l0 l' vs s', l = u ++ x :: (l0 ++ l') ∧ (∀ y ∈ u, y.1 ≠ c.ti) ∧ x.1 = c.ti ∧ (∀ y ∈ l0, y.1 = c.ti) ∧
      ((∀ mx mn, c.kind ≠ .multi mx mn) → l0 = []) ∧ s = vs :: s' ∧ vs.length = l0.length + 1 ∧ inOrder cs l' = .ok s') := by
  rw [inOrder] at h
  have hsplit := List.takeWhile_append_dropWhile (p := fun x : TagInst × List UInt8 => decide (x.1 ≠ c.ti)) (l := l)
  have hu : ∀ y ∈ l.takeWhile fun x => decide (x.1 ≠ c.ti), y.1 ≠ c.ti := by
    intro y hy; simpa using List.all_takeWhile |> List.all_eq_true.1 |> fun h => h y hy
  cases hd : l.dropWhile fun x => decide (x.1 ≠ c.ti) with
  | nil =>
    rw [hd] at h hsplit
    rw [List.append_nil] at hsplit
    simp only at h
    split at h
    · cases h
    · obtain ⟨s', h1, h2⟩ := Res.bind_eq_ok h
      cases h2
      exact .inl ⟨by rw [← hsplit]; exact hu, s', rfl, h1⟩
  | cons x rest =>
    rw [hd] at h hsplit
    simp only at h
    obtain ⟨vs, h1, h⟩ := Res.bind_eq_ok h
    obtain ⟨s', h2, h⟩ := Res.bind_eq_ok h
    cases h
    have hx : x.1 = c.ti := by
      have := List.head?_dropWhile_not (p := fun x : TagInst × List UInt8 => decide (x.1 ≠ c.ti)) (l := l)
      rw [hd] at this
      simpa using this
    refine .inr ⟨_, x, rest.take (runLength c rest), rest.drop (runLength c rest), vs, s', ?_, hu, hx, ?_, ?_, rfl, ?_, h2⟩
    · rw [List.take_append_drop]; exact hsplit.symm
    · unfold runLength
      cases hk : c.kind with
      | multi mx mn =>
        intro y hy
        simp only at hy
        rw [← List.prefix_iff_eq_take.1 (List.takeWhile_prefix _)] at hy
        simpa using List.all_takeWhile |> List.all_eq_true.1 |> fun h => h y hy
      | _ => simp
    · intro hk
      unfold runLength
      cases hk' : c.kind with
      | multi mx mn => exact absurd hk' (hk _ _)
      | _ => simp
    · rw [memberValues_length h1]
      simp

/-- A member holds at most as many values as there are IEs with its tag. -/
theorem inOrder_le {table : List (Coding A)} {l s} (h : inOrder table l = .ok s) {i : Nat} {c vs} (hc : table[i]? = some c)
    (hv : s[i]? = some vs) : vs.length ≤ tally c.ti l := by
  induction table generalizing l s i with
  | nil => simp at hc
  | cons c0 cs ih =>
    rcases inOrder_cons h with ⟨_, s', rfl, h'⟩ | ⟨u, x, l0, l', vs0, s', rfl, _, hx, hl0, _, rfl, hn, h'⟩
    · cases i with
      | zero => simp only [List.getElem?_cons_zero, Option.some.injEq] at hv; subst hv; simp
      | succ i => exact ih h' hc hv
    · cases i with
      | zero =>
        simp only [List.getElem?_cons_zero, Option.some.injEq] at hv hc
        subst hv hc
        rw [tally_append, tally, tally, List.countP_cons_of_pos (by simpa using hx), List.countP_append]
        have := tally_all hl0
        rw [tally] at this
        omega
      | succ i =>
        have := ih h' hc hv
        have h1 : tally c.ti l' ≤ tally c.ti (u ++ x :: (l0 ++ l')) :=
          ((List.sublist_append_right l0 l').cons x |>.trans (List.sublist_append_right u _)).countP_le
        omega

theorem inOrder_length {table : List (Coding A)} {l s} (h : inOrder table l = .ok s) : s.length = table.length := by
  induction table generalizing l s with
  | nil => cases h; rfl
  | cons c cs ih =>
    rcases inOrder_cons h with ⟨_, s', rfl, h'⟩ | ⟨_, _, _, _, _, s', _, _, _, _, _, rfl, _, h'⟩ <;> simp [ih h']

theorem _root_.Verif.Spec.Spread.tags {known : TagInst → Prop} {table : List (Coding A)} {l} (h : Spread known table l) :
    ∀ x ∈ l, known x.1 → x.1 ∈ table.map (·.ti) := by
  induction h with
  | nil h => intro x hx hk; exact absurd hk (h x hx)
  | absent _ ih => intro x hx hk; exact List.mem_cons_of_mem _ (ih x hx hk)
  | @present c cs u x0 l l' h1 h2 h3 _ _ ih =>
    intro x hx hk
    rcases List.mem_append.1 hx with hx | hx
    · exact absurd hk (h1 x hx)
    · rcases List.mem_cons.1 hx with rfl | hx
      · simp [h2]
      · rcases List.mem_append.1 hx with hx | hx
        · simp [h3 x hx]
        · exact List.mem_cons_of_mem _ (ih x hx hk)

theorem spread_of_counts {known : TagInst → Prop} {table : List (Coding A)} {l s} (hdt : (table.map (·.ti)).Nodup)
    (hk : ∀ x ∈ l, known x.1 → x.1 ∈ table.map (·.ti)) (h : inOrder table l = .ok s)
    (hall : ∀ (i : Nat) c vs, table[i]? = some c → s[i]? = some vs → vs.length = tally c.ti l) : Spread known table l := by
  induction table generalizing l s with
  | nil => exact .nil fun x hx hkx => by simpa using hk x hx hkx
  | cons c cs ih =>
    simp only [List.map_cons, List.nodup_cons] at hdt
    rcases inOrder_cons h with ⟨hno, s', rfl, h'⟩ | ⟨u, x, l0, l', vs, s', rfl, hu, hx, hl0, hone, rfl, hn, h'⟩
    · refine .absent (ih hdt.2 ?_ h' fun i c' vs hc hv => hall (i + 1) c' vs hc hv)
      intro x hx hkx
      rcases List.mem_cons.1 (hk x hx hkx) with h1 | h1
      · exact absurd h1 (hno x hx)
      · exact h1
    · have h0 := hall 0 c vs rfl rfl
      rw [tally_append, tally, tally, List.countP_cons_of_pos (by simpa using hx), List.countP_append] at h0
      have e1 := tally_all hl0
      have e2 := tally_zero hu
      rw [tally] at e1 e2
      have e3 : tally c.ti l' = 0 := by rw [tally]; omega
      have e4 := tally_none e3
      have hin : ∀ y ∈ l', y ∈ u ++ x :: (l0 ++ l') := fun y hy => by simp [hy]
      have hcs : ∀ (i : Nat) c' vs', cs[i]? = some c' → s'[i]? = some vs' → vs'.length = tally c'.ti l' ∧ tally c'.ti u = 0 := by
        intro i c' vs' hc hv
        have a := hall (i + 1) c' vs' hc hv
        have b := inOrder_le h' hc hv
        have : tally c'.ti (u ++ x :: (l0 ++ l')) = tally c'.ti u + (tally c'.ti (x :: l0) + tally c'.ti l') := by
          rw [← tally_append, ← tally_append]; rfl
        omega
      refine .present ?_ hx hl0 hone (ih hdt.2 ?_ h' fun i c' vs' hc hv => (hcs i c' vs' hc hv).1)
      · intro y hy hky
        rcases List.mem_cons.1 (hk y (by simp [hy]) hky) with h1 | h1
        · exact hu y hy h1
        · obtain ⟨c', hc', hct⟩ := List.mem_map.1 h1
          obtain ⟨i, hi⟩ := List.getElem?_of_mem hc'
          have hlen : s'.length = cs.length := inOrder_length h'
          have hil : i < s'.length := by
            rw [hlen]; exact (List.getElem?_eq_some_iff.1 hi).1
          have := (hcs i c' s'[i] hi (List.getElem?_eq_getElem hil)).2
          have hp := tally_pos hy
          rw [← hct] at hp
          omega
      · intro y hy hky
        rcases List.mem_cons.1 (hk y (hin y hy) hky) with h1 | h1
        · exact absurd h1 (e4 y hy)
        · exact h1
theorem counts_of_spread {known : TagInst → Prop} {table : List (Coding A)} {l s} (hs : Spread known table l)
    (hdt : (table.map (·.ti)).Nodup) (hkn : ∀ c ∈ table, known c.ti) (h : inOrder table l = .ok s) :
    ∀ (i : Nat) c vs, table[i]? = some c → s[i]? = some vs → vs.length = tally c.ti l := by
  induction hs generalizing s with
  | nil => intro i c vs hc; simp at hc
  | @absent c cs l hs ih =>
    simp only [List.map_cons, List.nodup_cons] at hdt
    have hno : ∀ x ∈ l, x.1 ≠ c.ti := fun x hx hxt =>
      hdt.1 (hxt ▸ hs.tags x hx (hxt ▸ hkn c (by simp)))
    rcases inOrder_cons h with ⟨_, s', rfl, h'⟩ | ⟨u, x, l0, l', vs, s', rfl, hu, hx, _⟩
    · intro i c' vs hc hv
      cases i with
      | zero =>
        simp only [List.getElem?_cons_zero, Option.some.injEq] at hc hv
        subst hc hv
        rw [tally_zero hno]; rfl
      | succ i => exact ih hdt.2 (fun c hc => hkn c (by simp [hc])) h' i c' vs hc hv
    · exact absurd hx (hno x (by simp))
  | @present c cs u x l0 l' h1 h2 h3 h4 hs ih =>
    simp only [List.map_cons, List.nodup_cons] at hdt
    have hno : ∀ y ∈ l', y.1 ≠ c.ti := fun y hy hyt =>
      hdt.1 (hyt ▸ hs.tags y hy (hyt ▸ hkn c (by simp)))
    have hu : ∀ y ∈ u, y.1 ≠ c.ti := fun y hy hyt => h1 y hy (hyt ▸ hkn c (by simp))
    have hdrop : (u ++ x :: (l0 ++ l')).dropWhile (fun x => decide (x.1 ≠ c.ti)) = x :: (l0 ++ l') := by
      rw [List.dropWhile_append_of_pos (by intro y hy; simpa using hu y hy), List.dropWhile_cons_of_neg (by simpa using h2)]
    have hrun : runLength c (l0 ++ l') = l0.length := by
      unfold runLength
      cases hk : c.kind with
      | multi mx mn =>
        simp only
        rw [List.takeWhile_append_of_pos (by intro y hy; simpa using h3 y hy)]
        have : l'.takeWhile (fun x => decide (x.1 = c.ti)) = [] := by
          cases l' with
          | nil => rfl
          | cons y l' => rw [List.takeWhile_cons_of_neg (by simpa using hno y (by simp))]
        rw [this, List.append_nil]
      | mand => rw [h4 (by simp [hk])]; rfl
      | opt => rw [h4 (by simp [hk])]; rfl
    rw [inOrder, hdrop] at h
    simp only [hrun] at h
    obtain ⟨vs, e1, h⟩ := Res.bind_eq_ok h
    obtain ⟨s', e2, h⟩ := Res.bind_eq_ok h
    cases h
    rw [List.drop_left' rfl] at e2
    intro i c' vs' hc hv
    cases i with
    | zero =>
      simp only [List.getElem?_cons_zero, Option.some.injEq] at hc hv
      subst hc hv
      rw [memberValues_length e1, tally_append, tally_zero hu]
      have : tally c.ti (x :: (l0 ++ l')) = tally c.ti (x :: l0) + tally c.ti l' := by rw [← tally_append]; rfl
      rw [this, tally_zero hno, tally_all (l := x :: l0) (by
        intro y hy
        rcases List.mem_cons.1 hy with rfl | hy
        · exact h2
        · exact h3 y hy)]
      simp
    | succ i =>
      rw [ih hdt.2 (fun c hc => hkn c (by simp [hc])) e2 i c' vs' hc hv, tally_append]
      have hc' : c' ∈ cs := List.mem_of_getElem? hc
      have hne : c.ti ≠ c'.ti := fun e => hdt.1 (e ▸ List.mem_map_of_mem hc')
      have : tally c'.ti (x :: (l0 ++ l')) = tally c'.ti (x :: l0) + tally c'.ti l' := by rw [← tally_append]; rfl
      rw [this, tally_zero (l := u) (fun y hy hyt => h1 y hy (hyt ▸ hkn c' (by simp [hc']))), tally_zero (l := x :: l0) (by
        intro y hy
        rcases List.mem_cons.1 hy with rfl | hy
        · rw [h2]; exact hne
        · rw [h3 y hy]; exact hne)]
      omega

/-- C73, exactly, for tables with distinct tags: if ordered decoding returns 0, then no IE that the table defines has been lost
if and only if the IEs are spread out as in the table. -/
theorem C73_exactly (w : Width) (table : List (Coding A)) (hdt : DistinctTags table) (hloc : ∀ c ∈ table, LooksOnlyAtIe c)
    (ies : List Ie) (hfit : ∀ x ∈ ies, w.Fits x) (rest : List UInt8) (s : Struct A)
    (h : gtlvsDecode (fresh w.cfg (w.octets ies ++ rest) (w.octets ies).length) true (some table) = .ok s) :
    (∀ (i : Nat) c vs, table[i]? = some c → s[i]? = some vs → vs.length = count c.ti ies) ↔
    Spread (fun t => t ∈ table.map (·.ti)) table (ies.map fun x => (tagOf x, x.2)) := by
  rw [C13_ordered_outcome w table hdt hloc ies hfit rest] at h
  have hct : ∀ t, tally t (ies.map fun x => (tagOf x, x.2)) = count t ies := by
    intro t
    rw [tally, List.countP_map, count, withTag, ← List.countP_eq_length_filter]
    rfl
  constructor
  · intro hall
    exact spread_of_counts hdt (fun _ _ h => h) h fun i c vs hc hv => by rw [hct]; exact hall i c vs hc hv
  · intro hs i c vs hc hv
    rw [← hct]
    exact counts_of_spread hs hdt (fun c hc => List.mem_map_of_mem hc) h i c vs hc hv

-- Unknown IEs between those of two entries do no harm; one within a repetition does.
example : Spread (fun t => t ∈ [raw 1 .mand, raw 3 (.multi 2 1)].map (·.ti)) [raw 1 .mand, raw 3 (.multi 2 1)]
    ([(1, [5]), (9, []), (3, [7]), (3, [8])].map fun x : Ie => (tagOf x, x.2)) ∧
  ¬ Spread (fun t => t ∈ [raw 3 (.multi 2 1)].map (·.ti)) [raw 3 (.multi 2 1)]
    ([(3, [7]), (9, []), (3, [8])].map fun x : Ie => (tagOf x, x.2)) := by
  refine ⟨.present (u := []) (l := []) (by simp) rfl (by simp) (fun _ => rfl)
    (.present (u := [(tagOf (9, []), [])]) (l := [(tagOf (3, [8]), [8])]) (l' := []) (by decide) rfl (by decide)
      (fun h => absurd rfl (h 2 1)) (.nil (by simp))), fun h => ?_⟩
  have := (C73_exactly .w8 [raw 3 (.multi 2 1)] (by unfold DistinctTags; decide) (by
    intro c hc
    rw [List.mem_singleton.1 hc]
    exact raw_local _ _) [(3, [7]), (9, []), (3, [8])] (by show ∀ x ∈ _, Fits8 x; unfold Fits8; decide) [] _ rfl).2 h 0 _ _ rfl rfl
  revert this
  decide

/-! ## C12 -/

/-- C12, what holds for any minimum: if ordered decoding with a table of distinct tags returns 0, every IE whose minimum is not
zero occurred, and its member has a value. -/
theorem C12_at_least_one (w : Width) (table : List (Coding A)) (mem : List UInt8) (len : Nat)
    (hw : len ≤ mem.length) (s : Struct A) (hdt : DistinctTags table)
    (h : gtlvsDecode (fresh w.cfg mem len) true (some table) = .ok s) :
    ∃ (ies : List Ie) (junk : List UInt8), (∀ x ∈ ies, w.Fits x) ∧ mem.take len = w.octets ies ++ junk ∧
      s.length = table.length ∧
      ∀ (i : Nat) c vs, table[i]? = some c → s[i]? = some vs → 0 < least c.kind → 0 < vs.length ∧ 0 < count c.ti ies := by
  obtain ⟨ies, junk, used, h1, h2, h3, h4⟩ := ordered_inv w table mem len hw s True (fun _ => hdt) h
  obtain ⟨k1, k2⟩ := Takes.at h3
  refine ⟨ies, junk, h1, h2, k1, ?_⟩
  intro i c vs hc hv hl
  obtain ⟨_, b, xs, a, bb⟩ := k2 i c vs hc hv
  have b := b trivial
  have hpos : 0 < vs.length := by
    cases hk : c.kind with
    | mand => rw [hk] at b; simp only at b; omega
    | opt => rw [hk] at hl; simp [least] at hl
    | multi mx mn =>
      rw [hk] at b hl
      simp only [least] at b hl
      have := b (by omega); omega
  refine ⟨hpos, ?_⟩
  obtain ⟨u, hu, he⟩ := List.sublist_map_iff.mp bb
  subst he
  obtain ⟨t1, t2⟩ := All2.values a
  rw [← t2] at hpos
  unfold count withTag
  have : u.filter (fun x => decide (tagOf x = c.ti)) = u := by
    rw [List.filter_eq_self]; intro x hx; simpa using t1 x hx
  rw [← this] at hpos
  exact Nat.lt_of_lt_of_le hpos ((hu.trans h4).filter _).length_le

-- The minimum is 2, one occurs: this is accepted, as is the IE after it; with none it is not.
example : gtlvsDecode (fresh t8l8v [3, 1, 7] 3) true (some [raw 3 (.multi 4 2)]) = .ok [[.leaf [7]]] ∧
    DistinctTags [raw 3 (.multi 4 2)] ∧ gtlvsDecode (fresh t8l8v [9, 0] 2) true (some [raw 3 (.multi 4 2)]) = .err .ENOENT :=
  ⟨rfl, by unfold DistinctTags; decide, rfl⟩

/-! ## C49 -/

/-- C49, exactly: what the messages are matched by, wherever they come from.  A response completes a pending request with a
resp_cb() (if no other one has the same number, see C54) if and only if it has the sequence number of the request; and a request
is answered from the cache, and otherwise passed to rx_msg_cb(), if and only if a response with its sequence number is kept. -/
theorem C49_exactly {ep ep' : Ep} (h : Reached ep) {m r} (hr : ep.handleRx m r = .ok ep') (hw : ep.seqWindow) :
    ∃ l, ep'.log = l ++ ep.log ∧
      (m.isResponse = true → ∀ e ∈ ep.reqs, (some ep.nextId ∈ respCalls e.id l ↔ e.m.hasCb = true ∧ e.m.h.seq = m.h.seq)) ∧
      (m.isResponse = false → (cachedReplies l ≠ [] ↔ ∃ e ∈ ep.resps, e.m.h.seq = m.h.seq)) ∧
      (m.isResponse = false → (dispatches l = [] ↔ ∃ e ∈ ep.resps, e.m.h.seq = m.h.seq)) := by
  obtain ⟨l, hl, d1, d2, -, -⟩ := C51_dispatch_rule h hr
  obtain ⟨hb, tail, ⟨l', hl', hx⟩, b0, -, -, -, c1, c2, c3⟩ := h.rxEvents hr
  have hll : l' = l := List.append_cancel_right (hl'.symm.trans hl)
  subst hll
  have hcached : m.isResponse = false → (cachedReplies l' ≠ [] ↔ ∃ e ∈ ep.resps, e.m.h.seq = m.h.seq) := by
    intro hm
    constructor
    · intro hne
      refine Classical.byContradiction fun hn => hne ?_
      have ht := c1 (by
        rw [if_neg (by simp [hm])]
        exact (queueFind_none (resps_kind h hm)).mpr fun e he hs => hn ⟨e, he, hs⟩)
      rw [cachedReplies_rxEvents, hx, ht]
      simp only [cachedReplies, List.filterMap_eq_nil_iff, List.mem_reverse]
      intro y hy
      simp only [List.cons_append, List.mem_cons, List.mem_append, List.not_mem_nil, or_false] at hy
      rcases hy with rfl | (hy | hy) | rfl
      · rfl
      · obtain ⟨_, _, _, _, _, rfl⟩ := b0 y hy; rfl
      · unfold ctxEvent at hy
        split at hy
        · rw [List.mem_singleton.1 hy]
        · cases hy
      · rfl
    · rintro hk hn
      obtain ⟨l2, _, _, _, _, _, hl2, _, _, _, _, _, hc, _⟩ := C50_answered_from_cache h hr hm hk
      have : l2 = l' := List.append_cancel_right (hl2.symm.trans hl)
      rw [this, hn] at hc
      cases hc
  refine ⟨l', hl, ?_, hcached, ?_⟩
  · intro hm e he
    rw [respCalls_rx, hx]
    have hno : ∀ t, Event.respCb e.id (some ep.nextId) t ∈ Event.received ep.nextId m :: hb ++ ctxEvent ep ep.nextId
        (if m.isResponse then (queueFind ep.reqs m).map (·.id) else none) ++ tail ↔
        Event.respCb e.id (some ep.nextId) t ∈ tail := by
      intro t
      simp only [List.cons_append, List.mem_cons, List.mem_append, reduceCtorEq, false_or]
      constructor
      · rintro ((hy | hy) | hy)
        · obtain ⟨_, _, _, _, _, hy⟩ := b0 _ hy; cases hy
        · unfold ctxEvent at hy
          split at hy
          · cases List.mem_singleton.1 hy
          · cases hy
        · exact hy
      · exact .inr
    simp only [hno]
    cases hf : queueFind ep.reqs m with
    | none =>
      rw [c1 (by rw [if_pos hm]; exact hf)]
      constructor
      · rintro ⟨t, ht⟩; cases List.mem_singleton.1 ht
      · rintro ⟨_, hs⟩; exact absurd hs ((queueFind_none (reqs_kind h hm)).mp hf e he)
    | some prev =>
      obtain ⟨p1, p2⟩ := queueFind_some hf
      rw [(c2 prev hm hf).1]
      constructor
      · rintro ⟨t, ht⟩
        by_cases hc : prev.m.hasCb = true
        · rw [if_pos hc, List.mem_append] at ht
          rcases ht with ht | ht
          · have hid : e.id = prev.id := by
              have ht := List.mem_singleton.1 ht
              simp only [Event.respCb.injEq] at ht
              exact ht.1
            have e1 := look_of_mem h.inv.nodupReqs he
            have e2 := look_of_mem h.inv.nodupReqs p1
            rw [hid, e2] at e1
            cases e1
            exact ⟨hc, p2⟩
          · split at ht
            · cases List.mem_singleton.1 ht
            · cases ht
        · rw [if_neg hc] at ht
          cases List.mem_singleton.1 ht
      · rintro ⟨hc, hs⟩
        have : e = prev := C54_unique h hw he p1 (by rw [hs, p2])
        subst this
        exact ⟨ep.now, by rw [if_pos hc]; simp⟩
  · intro hm
    constructor
    · intro hd
      exact Classical.byContradiction fun hn => by
        have := d2 hm fun e he hs => hn ⟨e, he, hs⟩
        rw [hd] at this
        cases this
    · exact d1 hm

/-- Example: three requests are pending, to one peer; a response with sequence number 2 arrives from another address.  It completes
the second request, and no other one. -/
example : ∃ ep ep' m, exec exSend3 exEp = .ok ep ∧ Reached ep ∧ ep.seqWindow ∧ ep.reqs.map (·.m.h.seq) = [3, 2, 1] ∧
    ep.reqs.map (·.m.remote) = [exRemote, exRemote, exRemote] ∧ m.isResponse = true ∧ m.h.seq = 2 ∧ m.remote = exOther ∧
    ep.handleRx m {} = .ok ep' ∧ ep'.reqs.map (·.m.h.seq) = [3, 1] ∧ respCalls 1 ep'.log = [some ep.nextId] := by
  refine ⟨_, _, { remote := exOther, rx := true, isResponse := true, h := { type := 2, seq := 2 }, ies := [[.leaf (.u32 7)]] },
    rfl, exEp_reached.exec (ops := exSend3) rfl, ?_, rfl, rfl, rfl, rfl, rfl, rfl, rfl, rfl⟩
  intro x hx
  rcases hx with _ | ⟨_, _ | ⟨_, _ | ⟨_, hx⟩⟩⟩
  · exact ⟨rfl, by decide⟩
  · exact ⟨rfl, by decide⟩
  · exact ⟨rfl, by decide⟩
  · cases hx

end Verif.Props
