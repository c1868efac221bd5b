/-
Property theorems C12-C18: ordered decoding, round trips, encoding, termination
(src/libosmo-gtlv/gtlv_dec_enc.c).
-/
import Verif.PropsDecEnc

namespace Verif.Props
open Verif Spec

variable {A : Type}

/-! ## C12 -/

/-- C12 does not hold: a repeated IE with count_mandatory 2 is accepted when it occurs once. -/
theorem C12_counterexample_count :
    gtlvsDecode (fresh t8l8v [3, 1, 7] 3) true (some [raw 3 (.multi 4 2)]) = .ok [[.leaf [7]]] ∧
    count { tag := 3 } [(3, [7])] < required { tag := 3 } [raw 3 (.multi 4 2)] := ⟨rfl, by decide⟩

/-- C12 does not hold: when a repeated IE is full and a later entry has the same tag, mandatory
entries in between are skipped. -/
theorem C12_counterexample_skip :
    gtlvsDecode (fresh t8l8v [1, 0, 1, 0] 4) true (some [raw 1 (.multi 1 0), raw 2 .mand, raw 1 .opt]) =
      .ok [[.leaf []], [], [.leaf []]] := rfl

theorem Takes.at {strict : Prop} {cs : List (Coding A)} {ss : Struct A} {l}
    (h : Takes strict cs ss l) : ss.length = cs.length ∧
    ∀ (i : Nat) c vs, cs[i]? = some c → ss[i]? = some vs →
      vs.length ≤ c.kind.cap ∧
      (strict → match c.kind with
        | .mand => vs.length = 1
        | .opt => True
        | .multi _ mandatory => 0 < mandatory → 0 < vs.length) ∧
      ∃ xs, All2 (fun (x : TagInst × List UInt8) v => x.1 = c.ti ∧ DecodesTo c x.2 v) xs vs ∧
        xs.Sublist l := by
  induction h with
  | nil => simp
  | @cons c cs vs ss xs l h1 h2 h3 _ ih =>
    refine ⟨by simp [ih.1], ?_⟩
    intro i c' vs' hc hv
    cases i with
    | zero =>
      simp only [List.getElem?_cons_zero, Option.some.injEq] at hc hv
      subst hc hv
      exact ⟨h1, h2, xs, h3, List.sublist_append_left ..⟩
    | succ i =>
      simp only [List.getElem?_cons_succ] at hc hv
      obtain ⟨a, b, xs', d, e⟩ := ih.2 i c' vs' hc hv
      exact ⟨a, b, xs', d, e.trans (List.sublist_append_right ..)⟩

theorem Takes.pair {strict : Prop} {cs : List (Coding A)} {ss : Struct A} {l}
    (h : Takes strict cs ss l) (i j : Nat) (hij : i < j) (c c' : Coding A) (vs vs' : List (Val A))
    (h1 : cs[i]? = some c) (h2 : cs[j]? = some c') (h3 : ss[i]? = some vs) (h4 : ss[j]? = some vs') :
    ∃ xs xs', All2 (fun (x : TagInst × List UInt8) v => x.1 = c.ti ∧ DecodesTo c x.2 v) xs vs ∧
      All2 (fun (x : TagInst × List UInt8) v => x.1 = c'.ti ∧ DecodesTo c' x.2 v) xs' vs' ∧
      (xs ++ xs').Sublist l := by
  induction h generalizing i j with
  | nil => simp at h1
  | @cons c0 cs vs0 ss xs l k1 k2 k3 hr ih =>
    obtain ⟨j, rfl⟩ : ∃ k, j = k + 1 := ⟨j - 1, by omega⟩
    simp only [List.getElem?_cons_succ] at h2 h4
    cases i with
    | zero =>
      simp only [List.getElem?_cons_zero, Option.some.injEq] at h1 h3
      subst h1 h3
      obtain ⟨_, _, xs', a, b⟩ := (Takes.at hr).2 j c' vs' h2 h4
      exact ⟨xs, xs', k3, a, List.Sublist.append_left b xs⟩
    | succ i =>
      simp only [List.getElem?_cons_succ] at h1 h3
      obtain ⟨ys, ys', a, b, e⟩ := ih i j (by omega) h1 h2 h3 h4
      exact ⟨ys, ys', a, b, e.trans (List.sublist_append_right ..)⟩

/-- The window of a successful ordered decode: a sequence of IEs, and behind them possibly octets
that are not an IE. -/
theorem ordered_inv (w : Width) (table : List (Coding A)) (mem : List UInt8) (len : Nat)
    (hw : len ≤ mem.length) (s : Struct A) (strict : Prop) (hst : strict → DistinctTags table)
    (h : gtlvsDecode (fresh w.cfg mem len) true (some table) = .ok s) :
    ∃ (ies : List Ie) (junk : List UInt8) (used : List Ie), (∀ x ∈ ies, w.Fits x) ∧
      mem.take len = w.octets ies ++ junk ∧ Takes strict table s (used.map asIe) ∧ used.Sublist ies := by
  simp only [gtlvsDecode, if_true] at h
  obtain ⟨l, junk, used, h1, h2, h3, h4⟩ :=
    decodeOrdered_takes (Width.lawful w) table strict hst (fresh w.cfg mem len) rfl hw s h
  obtain ⟨ies, rfl, hfit⟩ := Width.unmap w l h2
  obtain ⟨used', hu, he⟩ : ∃ used', List.Sublist used' ies ∧ used = used'.map asIe := by
    obtain ⟨u, hu⟩ := List.sublist_map_iff.mp h4
    exact ⟨u, hu.1, hu.2⟩
  subst he
  refine ⟨ies, junk, used', hfit, ?_, h3, hu⟩
  rw [← (Width.octets_eq w ies hfit).1]
  exact h1

theorem All2.values {xs : List Ie} {vs : List (Val A)} {c : Coding A}
    (h : All2 (fun (x : TagInst × List UInt8) v => x.1 = c.ti ∧ DecodesTo c x.2 v) (xs.map asIe) vs) :
    (∀ x ∈ xs, tagOf x = c.ti) ∧ xs.length = vs.length := by
  induction xs generalizing vs with
  | nil => cases h; simp
  | cons x xs ih =>
    cases h with
    | cons a b =>
      obtain ⟨h1, h2⟩ := ih b
      refine ⟨?_, by simp [h2]⟩
      intro y hy
      rcases List.mem_cons.mp hy with rfl | hy
      · exact a.1
      · exact h1 y hy

/-- C12 for tables with distinct tags where no IE must occur more than once: after a successful
ordered decode, the struct obeys the table, and each tag occurs at least as often as its member
holds values.
Missing from C12: `count_mandatory` above 1, and tables with two entries for one tag; there the
claim is false (see the counterexamples). -/
theorem C12_ordered_mandatory_partial (w : Width) (table : List (Coding A)) (mem : List UInt8) (len : Nat)
    (hw : len ≤ mem.length) (s : Struct A) (hdt : DistinctTags table)
    (hone : ∀ c ∈ table, least c.kind ≤ 1)
    (h : gtlvsDecode (fresh w.cfg mem len) true (some table) = .ok s) :
    ∃ (ies : List Ie) (junk : List UInt8), (∀ x ∈ ies, w.Fits x) ∧ mem.take len = w.octets ies ++ junk ∧
      Obeys table s ∧
      ∀ (i : Nat) c vs, table[i]? = some c → s[i]? = some vs → vs.length ≤ count c.ti ies := by
  obtain ⟨ies, junk, used, h1, h2, h3, h4⟩ := ordered_inv w table mem len hw s True (fun _ => hdt) h
  obtain ⟨k1, k2⟩ := Takes.at h3
  refine ⟨ies, junk, h1, h2, ⟨k1, ?_⟩, ?_⟩
  · intro i c vs hc hv
    obtain ⟨a, b, _⟩ := k2 i c vs hc hv
    have b := b trivial
    have ho := hone c (List.mem_of_getElem? hc)
    rw [most_eq]
    refine ⟨?_, a⟩
    cases hk : c.kind with
    | mand => rw [hk] at b; simp only [least]; simp only at b; omega
    | opt => simp [least]
    | multi mx mn =>
      rw [hk] at b ho
      simp only [least] at b ho ⊢
      by_cases hz : mn = 0
      · omega
      · have := b (by omega); omega
  · intro i c vs hc hv
    obtain ⟨_, _, xs, a, b⟩ := k2 i c vs hc hv
    obtain ⟨u, hu, he⟩ := List.sublist_map_iff.mp b
    subst he
    obtain ⟨t1, t2⟩ := All2.values a
    rw [← t2]
    unfold count withTag
    have : u.filter (fun x => decide (tagOf x = c.ti)) = u := by
      rw [List.filter_eq_self]; intro x hx; simpa using t1 x hx
    rw [← this]
    exact ((hu.trans h4).filter _).length_le

example : gtlvsDecode (fresh t8l8v [9, 0, 1, 1, 5, 3, 0] 7) true (some rawTable) =
    .ok [[.leaf [5]], [], [.leaf []]] ∧ DistinctTags rawTable ∧ ∀ c ∈ rawTable, least c.kind ≤ 1 :=
  ⟨rfl, by unfold DistinctTags; decide, by decide⟩
example : gtlvsDecode (fresh t8l8v [9, 0, 3, 0] 4) true (some rawTable) = .err .ENOENT := rfl

/-! ## C13 -/

/-- C13 does not hold: with an optional IE in front of the mandatory one that the table defines
first, ordered decoding succeeds and silently drops the optional IE. -/
theorem C13_counterexample :
    gtlvsDecode (fresh t8l8v [2, 1, 7, 1, 1, 5] 6) true (some [raw 1 .mand, raw 2 .opt]) =
      .ok [[.leaf [5]], []] := rfl

/-- C13: what does hold. The values in the struct come, in table order, from IEs that appear in
that order: for members of two entries, the IEs of the first all precede those of the second. -/
theorem C13_ordered_values_in_order_partial (w : Width) (table : List (Coding A)) (mem : List UInt8)
    (len : Nat) (hw : len ≤ mem.length) (s : Struct A)
    (h : gtlvsDecode (fresh w.cfg mem len) true (some table) = .ok s) :
    ∃ (ies : List Ie) (junk : List UInt8), (∀ x ∈ ies, w.Fits x) ∧ mem.take len = w.octets ies ++ junk ∧
      ∀ (i j : Nat) c c' vs vs', i < j → table[i]? = some c → table[j]? = some c' →
        s[i]? = some vs → s[j]? = some vs' →
        ∃ l l' : List Ie, l.length = vs.length ∧ l'.length = vs'.length ∧ (∀ x ∈ l, tagOf x = c.ti) ∧
          (∀ x ∈ l', tagOf x = c'.ti) ∧ (l ++ l').Sublist ies := by
  obtain ⟨ies, junk, used, h1, h2, h3, h4⟩ := ordered_inv w table mem len hw s False (fun h => h.elim) h
  refine ⟨ies, junk, h1, h2, ?_⟩
  intro i j c c' vs vs' hij a b d e
  obtain ⟨xs, xs', k1, k2, k3⟩ := Takes.pair h3 i j hij c c' vs vs' a b d e
  obtain ⟨u, hu, he⟩ := List.sublist_map_iff.mp k3
  obtain ⟨l, l', rfl, e1, e2⟩ := List.map_eq_append_iff.mp he.symm
  subst e1 e2
  obtain ⟨m1, m2⟩ := All2.values k1
  obtain ⟨n1, n2⟩ := All2.values k2
  exact ⟨l, l', m2, n2, m1, n1, hu.trans h4⟩

/-- C13 for two mandatory IEs of a table with distinct tags: if they do not appear in table order,
ordered decoding does not succeed. -/
theorem C13_mandatory_disorder_fails_partial (w : Width) (table : List (Coding A)) (ies : List Ie)
    (hfit : ∀ x ∈ ies, w.Fits x) (rest : List UInt8) (hdt : DistinctTags table)
    (i j : Nat) (hij : i < j) (c c' : Coding A) (hc : table[i]? = some c) (hc' : table[j]? = some c')
    (hm : c.kind = .mand) (hm' : c'.kind = .mand)
    (hdis : ∀ x y, tagOf x = c.ti → tagOf y = c'.ti → ¬ [x, y].Sublist ies) (s : Struct A) :
    gtlvsDecode (fresh w.cfg (w.octets ies ++ rest) (w.octets ies).length) true (some table) ≠ .ok s := by
  intro h
  simp only [gtlvsDecode, if_true] at h
  obtain ⟨l, junk, used, h1, h2, h3, h4⟩ := decodeOrdered_takes (Width.lawful w) table True (fun _ => hdt)
    (fresh w.cfg (w.octets ies ++ rest) (w.octets ies).length) rfl (by simp [fresh]) s h
  obtain ⟨l', rfl, hfit'⟩ := Width.unmap w l h2
  -- the decoder sees (a prefix of) these IEs
  have hl : (l'.map asIe).Sublist (ies.map asIe) := by
    have ho : w.octets ies = w.octets l' ++ junk := by
      rw [← (Width.octets_eq w l' hfit').1]; simpa [fresh] using h1
    -- parse of a prefix
    have key : ∀ (a b : List (TagInst × List UInt8)) (junk : List UInt8), tlvsDom (Width.dom w) a →
        tlvsDom (Width.dom w) b → tlvBytes (Width.hdr w) a = tlvBytes (Width.hdr w) b ++ junk →
        ∃ c, a = b ++ c := by
      intro a
      induction a with
      | nil =>
        intro b junk _ _ he
        cases b with
        | nil => exact ⟨[], rfl⟩
        | cons y b =>
          have := congrArg List.length he
          have hp := (Width.lawful w).tlMin_pos
          simp only [tlvBytes, List.length_append, (Width.lawful w).hdr_len, List.length_nil] at this
          omega
      | cons x a ih =>
        intro b junk ha hb he
        cases b with
        | nil => exact ⟨_, rfl⟩
        | cons y b =>
          obtain ⟨t, v⟩ := x
          obtain ⟨t', v'⟩ := y
          simp only [tlvBytes, List.append_assoc] at he
          have hlen : (Width.hdr w t v.length).length = (Width.hdr w t' v'.length).length := by
            rw [(Width.lawful w).hdr_len, (Width.lawful w).hdr_len]
          obtain ⟨e1, e2⟩ := List.append_inj he hlen
          obtain ⟨e3, e4⟩ := (Width.lawful w).inj _ _ _ _ (ha (t, v) (by simp)) (hb (t', v') (by simp)) e1
          obtain ⟨e5, e6⟩ := List.append_inj e2 e4
          subst e3 e5
          obtain ⟨c, hc⟩ := ih b junk (fun x hx => ha x (by simp [hx])) (fun x hx => hb x (by simp [hx])) e6
          exact ⟨c, by simp [hc]⟩
    obtain ⟨a1, a2⟩ := Width.octets_eq w ies hfit
    obtain ⟨b1, b2⟩ := Width.octets_eq w l' hfit'
    obtain ⟨c, hc⟩ := key _ _ junk a2 b2 (by rw [a1, b1, ho])
    rw [hc]
    exact List.sublist_append_left ..
  obtain ⟨k1, k2⟩ := Takes.at h3
  have hi : i < s.length := by rw [k1]; exact (List.getElem?_eq_some_iff.mp hc).1
  have hj : j < s.length := by rw [k1]; exact (List.getElem?_eq_some_iff.mp hc').1
  have hi' : s[i]? = some s[i] := List.getElem?_eq_getElem hi
  have hj' : s[j]? = some s[j] := List.getElem?_eq_getElem hj
  obtain ⟨xs, xs', m1, m2, m3⟩ := Takes.pair h3 i j hij c c' _ _ hc hc' hi' hj'
  have n1 := (k2 i c _ hc hi').2.1 trivial
  have n2 := (k2 j c' _ hc' hj').2.1 trivial
  rw [hm] at n1
  rw [hm'] at n2
  simp only at n1 n2
  obtain ⟨u, hu, he⟩ := List.sublist_map_iff.mp ((m3.trans h4).trans hl)
  obtain ⟨a, b, rfl, e1, e2⟩ := List.map_eq_append_iff.mp he.symm
  subst e1 e2
  obtain ⟨p1, p2⟩ := All2.values m1
  obtain ⟨q1, q2⟩ := All2.values m2
  rw [n1] at p2
  rw [n2] at q2
  match a, p2, b, q2 with
  | [x], _, [y], _ => exact hdis x y (p1 x (by simp)) (q1 y (by simp)) (by simpa using hu)

-- two mandatory IEs in the wrong order
example : gtlvsDecode (fresh t8l8v [2, 0, 1, 0] 4) true (some [raw 1 .mand, raw 2 .mand]) = .err .ENOENT ∧
    ∀ x y, tagOf x = (raw 1 .mand).ti → tagOf y = (raw 2 .mand).ti →
      ¬ [x, y].Sublist ([(2, []), (1, [])] : List Ie) := by
  refine ⟨rfl, ?_⟩
  intro x y hx hy hs
  have h2 := hs.eq_of_length (by rfl)
  simp only [List.cons.injEq] at h2
  rw [h2.1] at hx
  exact absurd hx (by decide)

/-! ## C14 -/

theorem zip_to_encodes (w : Width) (cs : List (Coding A)) : ∀ (ss : Struct A), ss.length = cs.length →
    (∀ x ∈ cs.zip ss, (least x.1.kind ≤ x.2.length ∧ x.2.length ≤ most x.1.kind) ∧
      ∀ v ∈ x.2, ∃ tag octets, x.1.ti = tagOf (tag, octets) ∧ w.Fits (tag, octets) ∧ Codec x.1 v octets) →
    ∃ ies : List Ie, (∀ x ∈ ies, w.Fits x) ∧ Encodes Codes Kind.obeys cs ss (ies.map asIe) := by
  induction cs with
  | nil =>
    intro ss hl _
    cases ss with
    | nil => exact ⟨[], by simp, .nil⟩
    | cons => simp at hl
  | cons c cs ih =>
    intro ss hl hx
    cases ss with
    | nil => simp at hl
    | cons vs ss =>
    obtain ⟨ies, h1, h2⟩ := ih ss (by simpa using hl) (fun x h => hx x (by simp [h]))
    obtain ⟨⟨k1, k2⟩, k3⟩ := hx (c, vs) (by simp)
    simp only at k1 k2 k3
    have hvs : ∃ l : List Ie, (∀ x ∈ l, w.Fits x ∧ tagOf x = c.ti) ∧ All2 (Codes c) vs (l.map fun x => x.2) := by
      clear hx k1 k2 h2 hl
      induction vs with
      | nil => exact ⟨[], by simp, .nil⟩
      | cons v vs ihv =>
        obtain ⟨l, a, b⟩ := ihv (fun v hv => k3 v (by simp [hv]))
        obtain ⟨tag, o, e1, e2, e3⟩ := k3 v (by simp)
        refine ⟨(tag, o) :: l, ?_, .cons e3 b⟩
        intro x hx
        rcases List.mem_cons.mp hx with rfl | hx
        · exact ⟨e2, e1.symm⟩
        · exact a x hx
    obtain ⟨l, a, b⟩ := hvs
    refine ⟨l ++ ies, ?_, ?_⟩
    · intro x hx
      rcases List.mem_append.mp hx with hx | hx
      · exact (a x hx).1
      · exact h1 x hx
    · have hsplit : l.map asIe = (l.map fun x => x.2).map fun bs => (c.ti, bs) := by
        rw [List.map_map]
        apply List.map_congr_left
        intro x hx
        simp only [asIe, Function.comp, ← (a x hx).2]; rfl
      rw [List.map_append, hsplit]
      refine .cons ?_ b h2
      cases hk : c.kind <;> rw [hk] at k1 k2 <;> simp only [least, most, Kind.obeys] at k1 k2 ⊢ <;> omega

theorem roundTrip (w : Width) (table : List (Coding A)) (s : Struct A) (hdt : DistinctTags table)
    (hsm : SmallTable table) (hob : Obeys table s) (hcod : AllCodec w table s) :
    ∃ ies : List Ie, (∀ x ∈ ies, w.Fits x) ∧ Encodes Codes Kind.obeys table s (ies.map asIe) ∧
      (∀ b : Msgb, b.data.length + (w.octets ies).length ≤ b.cap →
        gtlvsEncode w.cfg s b (some table) = .ok { b with data := b.data ++ w.octets ies }) ∧
      ∀ rest ordered, gtlvsDecode (fresh w.cfg (w.octets ies ++ rest) (w.octets ies).length) ordered
        (some table) = .ok s := by
  obtain ⟨ies, h1, h2⟩ := zip_to_encodes w table s hob.1 (zip_of_get (P := fun c vs =>
      (least c.kind ≤ vs.length ∧ vs.length ≤ most c.kind) ∧
      ∀ v ∈ vs, ∃ tag octets, c.ti = tagOf (tag, octets) ∧ w.Fits (tag, octets) ∧ Codec c v octets)
    (fun i c vs a b => ⟨hob.2 i c vs a b, hcod i c vs a b⟩))
  obtain ⟨e1, e2⟩ := Width.octets_eq w ies h1
  refine ⟨ies, h1, h2, ?_, ?_⟩
  · have := gtlvsEncode_eq (Width.lawful w) (h2.mono (fun _ _ _ x => x.1) (fun _ _ x => x.fits)) e2 (Width.dom_zero w)
    rw [e1] at this
    exact this
  · intro rest ordered
    cases ordered with
    | false =>
      have := decodeUnordered_encodes (Width.lawful w) hdt hsm h2 e2 rest
      rw [e1] at this
      exact this
    | true =>
      have := decodeOrdered_encodes (Width.lawful w) hdt h2 e2 rest
      rw [e1] at this
      exact this

/-- C14: a struct that obeys a table with distinct tags and whose values have codecs is encoded as
some octets (in any msgb with room for them), from which unordered decoding makes the same struct,
whatever follows in memory. -/
theorem C14_round_trip_unordered (w : Width) (table : List (Coding A)) (s : Struct A)
    (hdt : DistinctTags table) (hsm : SmallTable table) (hob : Obeys table s) (hcod : AllCodec w table s) :
    ∃ octets : List UInt8,
      (∀ b : Msgb, b.data.length + octets.length ≤ b.cap →
        gtlvsEncode w.cfg s b (some table) = .ok { b with data := b.data ++ octets }) ∧
      ∀ rest, gtlvsDecode (fresh w.cfg (octets ++ rest) octets.length) false (some table) = .ok s := by
  obtain ⟨ies, _, _, h2, h3⟩ := roundTrip w table s hdt hsm hob hcod
  exact ⟨w.octets ies, h2, fun rest => h3 rest false⟩

/-- C14 and C15, nested IEs: an entry with nested IEs is a codec for every sub-struct that the round
trip theorem applies to, decoded in either order.  So the round trip theorems apply to the
surrounding table, and by repetition at any depth. -/
theorem C14_nested_is_codec (w : Width) (ti : TagInst) (kind : Kind) (ordered : Bool)
    (inner : List (Coding A)) (s : Struct A)
    (hdt : DistinctTags inner) (hsm : SmallTable inner) (hob : Obeys inner s) (hcod : AllCodec w inner s) :
    ∃ octets, Codec (nestedCoding ti kind w.cfg ordered inner) (.node s) octets := by
  obtain ⟨ies, h0, h1, h2, h3⟩ := roundTrip w inner s hdt hsm hob hcod
  refine ⟨w.octets ies, ⟨_, rfl, fun b hb => h2 b hb⟩, _, rfl, ?_⟩
  intro rest
  have := h3 rest ordered
  simp only [fresh] at this
  rw [this]; rfl

/-! ## C15 -/

/-- C15: the same round trip for ordered decoding (here the table may have any size). -/
theorem C15_round_trip_ordered (w : Width) (table : List (Coding A)) (s : Struct A)
    (hdt : DistinctTags table) (hob : Obeys table s) (hcod : AllCodec w table s) :
    ∃ octets : List UInt8,
      (∀ b : Msgb, b.data.length + octets.length ≤ b.cap →
        gtlvsEncode w.cfg s b (some table) = .ok { b with data := b.data ++ octets }) ∧
      ∀ rest, gtlvsDecode (fresh w.cfg (octets ++ rest) octets.length) true (some table) = .ok s := by
  obtain ⟨ies, h1, h2⟩ := zip_to_encodes w table s hob.1 (zip_of_get (P := fun c vs =>
      (least c.kind ≤ vs.length ∧ vs.length ≤ most c.kind) ∧
      ∀ v ∈ vs, ∃ tag octets, c.ti = tagOf (tag, octets) ∧ w.Fits (tag, octets) ∧ Codec c v octets)
    (fun i c vs a b => ⟨hob.2 i c vs a b, hcod i c vs a b⟩))
  obtain ⟨e1, e2⟩ := Width.octets_eq w ies h1
  refine ⟨w.octets ies, ?_, ?_⟩
  · have := gtlvsEncode_eq (Width.lawful w) (h2.mono (fun _ _ _ x => x.1) (fun _ _ x => x.fits)) e2 (Width.dom_zero w)
    rw [e1] at this
    exact this
  · intro rest
    have := decodeOrdered_encodes (Width.lawful w) hdt h2 e2 rest
    rw [e1] at this
    exact this

/-- Raw IEs are codecs. -/
theorem raw_codec (tag : Nat) (kind : Kind) (v : List UInt8) : Codec (raw tag kind) (.leaf v) v := by
  refine ⟨⟨_, rfl, ?_⟩, _, rfl, ?_⟩
  · intro b hb
    exact if_pos hb
  · intro rest; simp only [rdN_all]; rfl

/-- A table with a nested, repeated IE, decoded in order, inside one decoded unordered. -/
def nestTable : List (Coding (List UInt8)) :=
  [raw 1 .mand, nestedCoding { tag := 7 } (.multi 2 1) t8l8v true rawTable]

def nestStruct : Struct (List UInt8) :=
  [[.leaf [1, 2]], [.node [[.leaf [9]], [], [.leaf []]], .node [[.leaf []], [.leaf [4]], [.leaf [5], .leaf [6]]]]]

-- The hypotheses of C14/C15 are met by raw IEs at the inner level ...
example : DistinctTags rawTable ∧ SmallTable rawTable ∧ Obeys rawTable [[.leaf [9]], [], [.leaf []]] ∧
    AllCodec .w8 rawTable [[.leaf [9]], [], [.leaf []]] := by
  refine ⟨by unfold DistinctTags; decide, by simp [SmallTable, rawTable], ⟨rfl, ?_⟩, ?_⟩
  · intro i c vs h1 h2
    match i with
    | 0 => simp [rawTable] at h1 h2; subst h1 h2; decide
    | 1 => simp [rawTable] at h1 h2; subst h1 h2; decide
    | 2 => simp [rawTable] at h1 h2; subst h1 h2; decide
    | n + 3 => simp [rawTable] at h1
  · intro i c vs h1 h2 v hv
    match i with
    | 0 =>
      simp [rawTable] at h1 h2; subst h1 h2
      simp at hv; subst hv
      exact ⟨1, [9], rfl, by simp [Width.Fits, Fits8], raw_codec ..⟩
    | 1 => simp [rawTable] at h1 h2; subst h1 h2; simp at hv
    | 2 =>
      simp [rawTable] at h1 h2; subst h1 h2
      simp at hv; subst hv
      exact ⟨3, [], rfl, by simp [Width.Fits, Fits8], raw_codec ..⟩
    | n + 3 => simp [rawTable] at h1
-- ... and the outer level runs as the theorem says.
example : gtlvsEncode t8l8v nestStruct ⟨64, []⟩ (some nestTable) =
    .ok ⟨64, [1, 2, 1, 2, 7, 5, 1, 1, 9, 3, 0, 7, 11, 1, 0, 2, 1, 4, 3, 1, 5, 3, 1, 6]⟩ := rfl
example : gtlvsDecode (fresh t8l8v
    [1, 2, 1, 2, 7, 5, 1, 1, 9, 3, 0, 7, 11, 1, 0, 2, 1, 4, 3, 1, 5, 3, 1, 6] 24) false (some nestTable) =
    .ok nestStruct := rfl

/-! ## C16 -/

/-- C16 does not hold: with less than a TL of tailroom left, the failure to write the second IE's TL
is ignored, the first IE's length is overwritten, and encoding returns 0. -/
theorem C16_counterexample :
    gtlvsEncode t16l16v [[.leaf [7, 8]], [.leaf [9]]] ⟨8, []⟩ (some [raw 1 .mand, raw 2 .mand]) =
      .ok ⟨8, [0, 1, 0, 3, 7, 8, 9]⟩ := rfl

theorem iesOf_encodes {R : Coding A → Val A → List UInt8 → Prop} {cs : List (Coding A)} {ss : Struct A} {ies}
    (h : IesOf R cs ss ies) (hN : ∀ x ∈ cs.zip ss, x.1.kind.fits x.2.length) :
    Encodes R Kind.fits cs ss (ies.map asIe) := by
  induction h with
  | nil => exact .nil
  | @cons c cs vs ss l l' h1 _ ih =>
    have hs : l.map asIe = (l.map fun x => x.2).map (fun bs => (c.ti, bs)) ∧
        All2 (R c) vs (l.map fun x => x.2) := by
      clear ih hN
      induction h1 with
      | nil => exact ⟨rfl, .nil⟩
      | cons a _ ih =>
        obtain ⟨i1, i2⟩ := ih
        refine ⟨?_, .cons a.2 i2⟩
        simp only [List.map_cons, i1, asIe, a.1]
        rfl
    rw [List.map_append, hs.1]
    exact .cons (hN (c, vs) (by simp)) hs.2 (ih (fun x hx => hN x (by simp [hx])))

/-- How many values a member can hold when encoding. -/
def Representable (table : List (Coding A)) (s : Struct A) : Prop :=
  s.length = table.length ∧
  ∀ (i : Nat) c vs, table[i]? = some c → s[i]? = some vs →
    match c.kind with
    | .mand => vs.length = 1
    | .opt => vs.length ≤ 1
    | .multi max _ => vs.length ≤ max

theorem Representable.zip {table : List (Coding A)} {s : Struct A} (h : Representable table s) :
    ∀ x ∈ table.zip s, x.1.kind.fits x.2.length := by
  refine zip_of_get (P := fun (c : Coding A) (vs : List (Val A)) => c.kind.fits vs.length) ?_
  intro i c vs a b
  have := h.2 i c vs a b
  cases hk : c.kind <;> rw [hk] at this <;> simpa [Kind.fits] using this

/-- C16, when the msgb has room for the IEs: encoding returns 0 and appends exactly the IEs of the
struct, in table order, each with tag and length.
Missing from C16: msgbs that become full, where the claim is false (counterexample above); see
also `C16_success_with_room_left_partial`. -/
theorem C16_faithful_partial (w : Width) (table : List (Coding A)) (s : Struct A) (ies : List Ie)
    (hfit : ∀ x ∈ ies, w.Fits x) (hrep : Representable table s) (hies : IesOf EncodesTo table s ies)
    (b : Msgb) (hroom : b.data.length + (w.octets ies).length ≤ b.cap) :
    gtlvsEncode w.cfg s b (some table) = .ok { b with data := b.data ++ w.octets ies } := by
  obtain ⟨e1, e2⟩ := Width.octets_eq w ies hfit
  have := gtlvsEncode_eq (Width.lawful w) (iesOf_encodes hies hrep.zip) e2 (Width.dom_zero w)
  rw [e1] at this
  exact this b hroom

section Full
variable {cfg : Cfg} {hdr : TagInst → Nat → List UInt8} {dom : TagInst → Nat → Prop}

/-- The last TL is inside the msgb. -/
def PutOk (cfg : Cfg) (p : Put) (b : Msgb) : Prop :=
  ∀ ti tl v, p.last = some (ti, tl, v) → v = tl + cfg.tlMin ∧ v ≤ b.data.length

theorem ignore_put (h : cfg.Lawful hdr dom) (p : Put) (b : Msgb) (ti : TagInst) (hp : PutOk cfg p b) :
    ∃ p' b', ignoreErr (putTli cfg p b ti 0) p b = (p', b') ∧ PutOk cfg p' b' ∧ b'.cap = b.cap ∧
      b.data.length ≤ b'.data.length := by
  unfold putTli
  cases hs : cfg.storeTl b.tailroom ti 0 with
  | error e => exact ⟨p, b, rfl, hp, rfl, Nat.le_refl _⟩
  | ok tl =>
    obtain ⟨e, _⟩ := h.store_inv _ _ _ _ hs
    refine ⟨_, _, rfl, ?_, rfl, by simp⟩
    intro ti tl v hl
    simp only [Option.some.injEq, Prod.mk.injEq] at hl
    obtain ⟨_, rfl, rfl⟩ := hl
    rw [e, h.hdr_len]
    exact ⟨rfl, by simp [h.hdr_len]⟩

theorem ignore_update (h : cfg.Lawful hdr dom) (p : Put) (b : Msgb) (hp : PutOk cfg p b) :
    ∃ p' b', ignoreErr (putUpdateTl cfg p b) p b = (p', b') ∧ PutOk cfg p' b' ∧ b'.cap = b.cap ∧
      b'.data.length = b.data.length := by
  unfold putUpdateTl
  cases hl : p.last with
  | none => exact ⟨p, b, rfl, hp, rfl, rfl⟩
  | some x =>
    obtain ⟨ti, tl, v⟩ := x
    obtain ⟨h1, h2⟩ := hp ti tl v hl
    simp only
    cases hs : cfg.storeTl (v - tl) ti (b.data.length - v) with
    | error e => exact ⟨p, b, rfl, hp, rfl, rfl⟩
    | ok o =>
      obtain ⟨e, _⟩ := h.store_inv _ _ _ _ hs
      have hol : o.length = cfg.tlMin := by rw [e, h.hdr_len]
      have hlen : (b.data.take tl ++ o ++ b.data.drop (tl + o.length)).length = b.data.length := by
        simp only [List.length_append, List.length_take, List.length_drop]; omega
      refine ⟨_, _, rfl, ?_, rfl, hlen⟩
      intro ti' tl' v' hl'
      simp only [Option.some.injEq, Prod.mk.injEq] at hl'
      obtain ⟨_, rfl, rfl⟩ := hl'
      simp only
      rw [hlen, hol]
      exact ⟨rfl, by omega⟩

/-- Octets are never taken back; and if, in the end, there is room for another TL, then all TLs
were written. -/
theorem encodeVals_inv (h : cfg.Lawful hdr dom) (c : Coding A) (vs : List (Val A)) :
    ∀ (bss : List (List UInt8)) (i : Nat) (p : Put) (b : Msgb) (p' : Put) (b' : Msgb),
    All2 (EncodesExactly c) vs bss → (∀ bs ∈ bss, dom c.ti bs.length) → dom c.ti 0 →
    PutOk cfg p b → encodeVals cfg c vs i p b = .ok (p', b') →
    PutOk cfg p' b' ∧ b'.cap = b.cap ∧ b.data.length ≤ b'.data.length ∧
    (b'.data.length + cfg.tlMin ≤ b'.cap →
      b'.data = b.data ++ tlvBytes hdr (bss.map fun bs => (c.ti, bs))) := by
  induction vs with
  | nil =>
    intro bss i p b p' b' hf _ _ hp he
    cases hf
    simp only [encodeVals, Out.ok.injEq, Prod.mk.injEq] at he
    obtain ⟨rfl, rfl⟩ := he
    exact ⟨hp, rfl, Nat.le_refl _, by simp [tlvBytes]⟩
  | cons v vs ih =>
    intro bss i p b p' b' hf hd hd0 hp he
    cases hf with
    | @cons _ bs _ bss hv hf =>
    obtain ⟨enc, hen, hx⟩ := hv
    obtain ⟨p1, b1, k1, k2, k3, k4⟩ := ignore_put h p b c.ti hp
    simp only [encodeVals, k1, hen] at he
    split at he
    · simp at he
    obtain ⟨x1, x2⟩ := hx b1
    by_cases hr : b1.data.length + bs.length ≤ b1.cap
    · rw [x1 hr] at he
      simp only at he
      have hp2 : PutOk cfg p1 { b1 with data := b1.data ++ bs } := by
        intro ti tl v hl
        obtain ⟨a, e⟩ := k2 ti tl v hl
        exact ⟨a, by simp only [List.length_append]; omega⟩
      obtain ⟨p3, b3, m1, m2, m3, m4⟩ := ignore_update h p1 { b1 with data := b1.data ++ bs } hp2
      rw [m1] at he
      simp only at he
      obtain ⟨n1, n2, n3, n4⟩ := ih bss (i + 1) p3 b3 p' b' hf (fun x hx => hd x (by simp [hx])) hd0 m2 he
      simp only [List.length_append] at m3 m4
      refine ⟨n1, by rw [n2, m3, k3], by omega, ?_⟩
      intro hroom
      -- the TL was written
      have hput : putTli cfg p b c.ti 0 =
          .ok ({ last := some (c.ti, b.data.length, b.data.length + cfg.tlMin) },
            { b with data := b.data ++ hdr c.ti 0 }) := by
        unfold putTli
        rw [h.store _ _ _ hd0 (by unfold Msgb.tailroom; omega)]
        simp [h.hdr_len]
      rw [hput] at k1
      simp only [ignoreErr, Prod.mk.injEq] at k1
      obtain ⟨rfl, rfl⟩ := k1
      have hupd : putUpdateTl cfg { last := some (c.ti, b.data.length, b.data.length + cfg.tlMin) }
          { b with data := b.data ++ hdr c.ti 0 ++ bs } =
          .ok ({ last := some (c.ti, b.data.length, b.data.length + cfg.tlMin) },
            { b with data := b.data ++ (hdr c.ti bs.length ++ bs) }) := by
        unfold putUpdateTl
        simp only
        have hlen : (b.data ++ hdr c.ti 0 ++ bs).length - (b.data.length + cfg.tlMin) = bs.length := by
          simp [h.hdr_len]; omega
        rw [hlen, h.store _ _ _ (hd bs (by simp)) (by omega)]
        simp only
        have hdrop : (b.data ++ hdr c.ti 0 ++ bs).drop (b.data.length + (hdr c.ti bs.length).length) = bs := by
          rw [h.hdr_len, ← h.hdr_len c.ti 0, ← List.length_append, List.drop_left]
        have htake : (b.data ++ hdr c.ti 0 ++ bs).take b.data.length = b.data := by
          rw [List.append_assoc, List.take_left]
        rw [hdrop, htake]
        simp [h.hdr_len]
      simp only at m1
      rw [hupd] at m1
      simp only [ignoreErr, Prod.mk.injEq] at m1
      obtain ⟨_, rfl⟩ := m1
      rw [n4 hroom]
      simp [tlvBytes]
    · exfalso
      cases henc : enc v b1 with
      | ok b2 => exact x2 (by omega) b2 henc
      | _ => rw [henc] at he; simp at he

theorem encodeTable_inv (h : cfg.Lawful hdr dom) {cs : List (Coding A)} {ss : Struct A} {l}
    (hl : Encodes EncodesExactly Kind.fits cs ss l) (hd : tlvsDom dom l)
    (hd0 : ∀ ti n, dom ti n → dom ti 0) :
    ∀ (p : Put) (b : Msgb) (p' : Put) (b' : Msgb), PutOk cfg p b →
    encodeTable cfg cs ss p b = .ok (p', b') →
    PutOk cfg p' b' ∧ b'.cap = b.cap ∧ b.data.length ≤ b'.data.length ∧
    (b'.data.length + cfg.tlMin ≤ b'.cap → b'.data = b.data ++ tlvBytes hdr l) := by
  induction hl with
  | nil =>
    intro p b p' b' hp he
    simp only [encodeTable, Out.ok.injEq, Prod.mk.injEq] at he
    obtain ⟨rfl, rfl⟩ := he
    exact ⟨hp, rfl, Nat.le_refl _, by simp [tlvBytes]⟩
  | @cons c cs vs ss bss l h1 h2 _ ih =>
    intro p b p' b' hp he
    obtain ⟨m1, _⟩ := membVals_ok h1
    have hdb : ∀ bs ∈ bss, dom c.ti bs.length := fun bs hbs => hd (c.ti, bs) (by simp [hbs])
    simp only [encodeTable, m1] at he
    cases hv : encodeVals cfg c vs 0 p b with
    | ok q =>
      obtain ⟨p1, b1⟩ := q
      rw [hv] at he
      simp only at he
      have k : PutOk cfg p1 b1 ∧ b1.cap = b.cap ∧ b.data.length ≤ b1.data.length ∧
          (b1.data.length + cfg.tlMin ≤ b1.cap →
            b1.data = b.data ++ tlvBytes hdr (bss.map fun bs => (c.ti, bs))) := by
        cases bss with
        | nil =>
          cases h2
          simp only [encodeVals, Out.ok.injEq, Prod.mk.injEq] at hv
          obtain ⟨rfl, rfl⟩ := hv
          exact ⟨hp, rfl, Nat.le_refl _, by simp [tlvBytes]⟩
        | cons bs bss => exact encodeVals_inv h c vs _ 0 p b p1 b1 h2 hdb (hd0 _ _ (hdb bs (by simp))) hp hv
      obtain ⟨k1, k2, k3, k4⟩ := k
      obtain ⟨n1, n2, n3, n4⟩ := ih (fun x hx => hd x (by simp [hx])) p1 b1 p' b' k1 he
      refine ⟨n1, by rw [n2, k2], by omega, ?_⟩
      intro hroom
      rw [n4 hroom, k4 (by omega), tlvBytes_append, List.append_assoc]
    | _ => rw [hv] at he; simp at he

end Full

/-- C16, in terms of the outcome: if encoding returns 0 and leaves room for at least another TL (2 or
4 octets), then it appended exactly the IEs of the struct, in table order. (Encoders: succeed
exactly when their octets fit.) -/
theorem C16_success_with_room_left_partial (w : Width) (table : List (Coding A)) (s : Struct A)
    (ies : List Ie) (hfit : ∀ x ∈ ies, w.Fits x) (hrep : Representable table s)
    (hies : IesOf EncodesExactly table s ies) (b b' : Msgb)
    (h : gtlvsEncode w.cfg s b (some table) = .ok b') (hleft : b'.data.length + w.tl ≤ b'.cap) :
    b' = { b with data := b.data ++ w.octets ies } := by
  obtain ⟨e1, e2⟩ := Width.octets_eq w ies hfit
  simp only [gtlvsEncode] at h
  cases ht : encodeTable w.cfg table s {} b with
  | ok q =>
    obtain ⟨p', b1⟩ := q
    rw [ht] at h
    simp only [dropPut, Out.ok.injEq] at h
    subst h
    obtain ⟨_, k2, _, k4⟩ := encodeTable_inv (Width.lawful w) (iesOf_encodes hies hrep.zip) e2
      (Width.dom_zero w) {} b p' b1 (by intro _ _ _ h; simp at h) ht
    rw [e1] at k4
    have htl : w.tl = w.cfg.tlMin := by cases w <;> rfl
    rw [htl] at hleft
    cases b1
    simp only at k2 k4 hleft
    rw [k4 hleft, k2]
  | _ => rw [ht] at h; simp [dropPut] at h

-- The hypotheses are met by raw IEs.
theorem raw_exact (tag kind) (v : List UInt8) : EncodesExactly (raw tag kind) (.leaf v) v := by
  refine ⟨_, rfl, fun b => ⟨?_, ?_⟩⟩
  · intro hb
    exact if_pos hb
  · intro hb b'
    have : b.put v = .abort := if_neg (by omega)
    simp only [this]
    simp
example : IesOf EncodesExactly rawTable [[.leaf [9]], [], [.leaf [], .leaf [3]]]
    [(1, [9]), (3, []), (3, [3])] :=
  .cons (l := [(1, [9])]) (.cons ⟨rfl, raw_exact ..⟩ .nil)
    (.cons (l := []) .nil
      (.cons (l := [(3, []), (3, [3])]) (.cons ⟨rfl, raw_exact ..⟩ (.cons ⟨rfl, raw_exact ..⟩ .nil)) .nil))
example : gtlvsEncode t16l16v [[.leaf [9]], [], [.leaf [], .leaf [3]]] ⟨18, []⟩ (some rawTable) =
    .ok ⟨18, [0, 1, 0, 1, 9, 0, 3, 0, 0, 0, 3, 0, 1, 3]⟩ := rfl

/-! ## C17 -/

theorem encodeVals_over (cfg : Cfg) (c : Coding A) (mx mn : Nat) (hk : c.kind = .multi mx mn) (vs : List (Val A)) :
    ∀ (i : Nat) (p : Put) (b : Msgb), i ≤ mx → mx < i + vs.length →
    ∀ q, encodeVals cfg c vs i p b ≠ .ok q := by
  induction vs with
  | nil => intro i p b h1 h2; simp at h2; omega
  | cons v vs ih =>
    intro i p b h1 h2 q
    simp only [encodeVals]
    split
    · simp
    · rename_i hx
      rw [hk] at hx
      simp only [Kind.exceeds, ge_iff_le, decide_eq_true_eq, Nat.not_le] at hx
      split
      · simp
      · split
        · exact ih _ _ _ (by omega) (by simp at h2; omega) q
        · simp
        · simp
        · simp
        · simp

/-- C17: a repeated IE with a count above its maximum makes encoding fail, whatever the other
contents, the encoders and the msgb. -/
theorem C17_over_maximum_fails (cfg : Cfg) (table : List (Coding A)) (s : Struct A) (i : Nat)
    (c : Coding A) (vs : List (Val A)) (max mandatory : Nat) (hc : table[i]? = some c)
    (hv : s[i]? = some vs) (hk : c.kind = .multi max mandatory) (hover : max < vs.length) (b b' : Msgb) :
    gtlvsEncode cfg s b (some table) ≠ .ok b' := by
  have key : ∀ (table : List (Coding A)) (s : Struct A) (i : Nat) (p : Put) (b : Msgb) q,
      table[i]? = some c → s[i]? = some vs → encodeTable cfg table s p b ≠ .ok q := by
    intro table
    induction table with
    | nil => intro s i p b q h; simp at h
    | cons c0 table ih =>
      intro s i p b q h1 h2
      cases s with
      | nil => simp at h2
      | cons s0 s =>
        cases i with
        | zero =>
          simp only [List.getElem?_cons_zero, Option.some.injEq] at h1 h2
          subst h1 h2
          have hm : membVals c0.kind s0 = some s0 := by rw [hk]; cases s0 <;> rfl
          simp only [encodeTable, hm]
          cases he : encodeVals cfg c0 s0 0 p b with
          | ok q' => exact absurd he (encodeVals_over cfg c0 max mandatory hk s0 0 p b (by omega) (by omega) q')
          | _ => simp
        | succ i =>
          simp only [List.getElem?_cons_succ] at h1 h2
          simp only [encodeTable]
          split
          · simp
          · split
            · exact ih s i _ _ q h1 h2
            · simp
            · simp
            · simp
            · simp
  simp only [gtlvsEncode]
  cases ht : encodeTable cfg table s {} b with
  | ok q => exact absurd ht (key table s i {} b q hc hv)
  | _ => simp [dropPut]

theorem encodeVals_enotsup (cfg : Cfg) (c : Coding A) (vs : List (Val A))
    (henc : ∃ enc, c.enc = some enc ∧ ∀ v b, ∃ b', enc v b = .ok b') :
    ∀ (i : Nat) (p : Put) (b : Msgb),
    (∃ q, encodeVals cfg c vs i p b = .ok q) ∨ ∃ q, encodeVals cfg c vs i p b = .err .ENOTSUP q := by
  obtain ⟨enc, he, hx⟩ := henc
  induction vs with
  | nil => intro i p b; exact .inl ⟨_, rfl⟩
  | cons v vs ih =>
    intro i p b
    simp only [encodeVals, he]
    split
    · exact .inr ⟨_, rfl⟩
    · obtain ⟨b', hb⟩ := hx v (ignoreErr (putTli cfg p b c.ti 0) p b).2
      rw [hb]
      exact ih _ _ _

/-- C17: the error is -ENOTSUP, if the encoders succeed. -/
theorem C17_over_maximum_is_enotsup (cfg : Cfg) (table : List (Coding A)) (s : Struct A) (i : Nat)
    (c : Coding A) (vs : List (Val A)) (max mandatory : Nat) (hc : table[i]? = some c)
    (hv : s[i]? = some vs) (hk : c.kind = .multi max mandatory) (hover : max < vs.length)
    (hlen : s.length = table.length)
    (hmand : ∀ (j : Nat) c' vs', table[j]? = some c' → s[j]? = some vs' → c'.kind = .mand → vs' ≠ [])
    (henc : ∀ c ∈ table, ∃ enc, c.enc = some enc ∧ ∀ v b, ∃ b', enc v b = .ok b') (b : Msgb) :
    ∃ b', gtlvsEncode cfg s b (some table) = .err .ENOTSUP b' := by
  have hn := C17_over_maximum_fails cfg table s i c vs max mandatory hc hv hk hover b
  have key : ∀ (table : List (Coding A)) (s : Struct A) (p : Put) (b : Msgb), s.length = table.length →
      (∀ x ∈ table.zip s, x.1.kind = .mand → x.2 ≠ []) →
      (∀ c ∈ table, ∃ enc, c.enc = some enc ∧ ∀ v b, ∃ b', enc v b = .ok b') →
      (∃ q, encodeTable cfg table s p b = .ok q) ∨ ∃ q, encodeTable cfg table s p b = .err .ENOTSUP q := by
    intro table
    induction table with
    | nil => intro s p b _ _ _; exact .inl ⟨_, rfl⟩
    | cons c0 table ih =>
      intro s p b hl hm he
      cases s with
      | nil => simp at hl
      | cons s0 s =>
        have hmv : ∃ vs, membVals c0.kind s0 = some vs := by
          have := hm (c0, s0) (by simp)
          simp only at this
          cases hk : c0.kind with
          | mand => cases s0 with
            | nil => exact absurd rfl (this hk)
            | cons v _ => exact ⟨[v], rfl⟩
          | opt => cases s0 with
            | nil => exact ⟨[], rfl⟩
            | cons v _ => exact ⟨[v], rfl⟩
          | multi a b => exact ⟨s0, by cases s0 <;> rfl⟩
        obtain ⟨vs, hmv⟩ := hmv
        simp only [encodeTable, hmv]
        rcases encodeVals_enotsup cfg c0 vs (he c0 (by simp)) 0 p b with ⟨q, hq⟩ | ⟨q, hq⟩
        · rw [hq]
          exact ih s _ _ (by simpa using hl) (fun x hx => hm x (by simp [hx])) (fun c hc => he c (by simp [hc]))
        · rw [hq]; exact .inr ⟨q, rfl⟩
  simp only [gtlvsEncode] at hn ⊢
  rcases key table s {} b hlen (zip_of_get (P := fun (c : Coding A) (vs : List (Val A)) => c.kind = .mand → vs ≠ []) hmand)
    henc with ⟨q, hq⟩ | ⟨q, hq⟩
  · rw [hq] at hn
    exact absurd rfl (hn q.2)
  · rw [hq]; exact ⟨q.2, rfl⟩

theorem encodeVals_no_read (cfg : Cfg) (c : Coding A) (mx mn : Nat) (hk : c.kind = .multi mx mn)
    (vs x x' : List (Val A)) (hx : x.length = x'.length) :
    ∀ (i : Nat) (p : Put) (b : Msgb), i + vs.length = mx →
    encodeVals cfg c (vs ++ x) i p b = encodeVals cfg c (vs ++ x') i p b := by
  induction vs with
  | nil =>
    intro i p b hi
    simp only [List.length_nil, Nat.add_zero] at hi
    cases x with
    | nil => cases x' with
      | nil => rfl
      | cons => simp at hx
    | cons y x =>
      cases x' with
      | nil => simp at hx
      | cons y' x' =>
        simp only [List.nil_append, encodeVals]
        have : c.kind.exceeds i = true := by rw [hk]; simp [Kind.exceeds, hi]
        rw [this]; rfl
  | cons v vs ih =>
    intro i p b hi
    simp only [List.cons_append, encodeVals]
    have := fun p b => ih (i + 1) p b (by simp at hi; omega)
    simp only [this]

/-- C17: array elements at or beyond the maximum are not read: the outcome does not depend on them. -/
theorem C17_no_read_beyond_maximum (cfg : Cfg) (pre post : List (Coding A)) (c : Coding A)
    (spre spost : Struct A) (vs x x' : List (Val A)) (max mandatory : Nat)
    (hk : c.kind = .multi max mandatory) (hvs : vs.length = max) (hx : x.length = x'.length)
    (hl : spre.length = pre.length) (b : Msgb) :
    gtlvsEncode cfg (spre ++ (vs ++ x) :: spost) b (some (pre ++ c :: post)) =
    gtlvsEncode cfg (spre ++ (vs ++ x') :: spost) b (some (pre ++ c :: post)) := by
  have key : ∀ (pre : List (Coding A)) (spre : Struct A) (p : Put) (b : Msgb), spre.length = pre.length →
      encodeTable cfg (pre ++ c :: post) (spre ++ (vs ++ x) :: spost) p b =
      encodeTable cfg (pre ++ c :: post) (spre ++ (vs ++ x') :: spost) p b := by
    intro pre
    induction pre with
    | nil =>
      intro spre p b hl
      cases spre with
      | cons => simp at hl
      | nil =>
        simp only [List.nil_append, encodeTable, hk]
        have hm : ∀ y : List (Val A), membVals (.multi max mandatory) y = some y := by intro y; cases y <;> rfl
        simp only [hm, encodeVals_no_read cfg c max mandatory hk vs x x' hx 0 p b (by omega)]
    | cons c0 pre ih =>
      intro spre p b hl
      cases spre with
      | nil => simp at hl
      | cons s0 spre =>
        simp only [List.cons_append, encodeTable]
        have := fun p b => ih spre p b (by simpa using hl)
        simp only [this]
  simp only [gtlvsEncode, key pre spre {} b hl]

example : (gtlvsEncode t8l8v [[.leaf [9]], [], [.leaf [], .leaf [3], .leaf [4]]] ⟨64, []⟩ (some rawTable)).toRes =
    .err .ENOTSUP := rfl

/-! ## C18 -/

theorem lib_consumes (w : Width) : w.cfg.Consumes := by
  cases w
  · constructor
    · intro p n tl h
      simp only [Width.cfg, t8l8v, rd] at h
      cases h1 : p[0]? <;> simp only [h1] at h
      · cases h
      · cases h2 : p[1]? <;> simp only [h2] at h
        · cases h
        · cases h; simp
    · intro p n h
      simp only [Width.cfg, t8l8v, rd] at h
      cases h1 : p[0]? <;> simp only [h1] at h
      · cases h
      · cases h2 : p[1]? <;> simp only [h2] at h <;> cases h
  · constructor
    · intro p n tl h
      simp only [Width.cfg, t16l16v, rdN] at h
      split at h
      · split at h
        · cases h; simp
        · cases h
      · cases h
    · intro p n h
      simp only [Width.cfg, t16l16v, rdN] at h
      split at h
      · split at h <;> cases h
      · cases h

/-- C18: with any TLV configuration that takes at least one octet per TL, decoding a window of `len`
octets ends within `len + 2` (unordered) or `entries + len + 2` (ordered) rounds, if the value
decoders end. (The model's loops stop with `diverge` at that bound.) -/
theorem C18_decoding_ends (cfg : Cfg) (hc : cfg.Consumes) (mem : List UInt8) (len : Nat) (ordered : Bool)
    (table : List (Coding A)) (hdec : ∀ c ∈ table, ∀ d, c.dec = some d → ∀ p n, d p n ≠ .diverge) :
    gtlvsDecode (fresh cfg mem len) ordered (some table) ≠ .diverge := by
  have hleft : (fresh cfg mem len).start.left = len := by simp [Load.left, Load.pos, Load.start, fresh]
  cases ordered with
  | false =>
    simp only [gtlvsDecode, Bool.false_eq_true, if_false, decodeUnordered]
    have := decodeUnorderedLoop_ends hdec ((fresh cfg mem len).srcLen + 2) (emptyStruct table)
      (fresh cfg mem len).start hc (by rw [hleft]; simp [fresh])
    cases hl : decodeUnorderedLoop table ((fresh cfg mem len).srcLen + 2) (emptyStruct table)
        (fresh cfg mem len).start with
    | ok s =>
      simp only [Res.bind_ok']
      have hm := checkMandatory_returns table s 0
      cases hk : checkMandatory table s 0 <;> rw [hk] at hm <;> simp [Res.Returns] at hm ⊢
    | diverge => exact absurd hl this
    | _ => simp
  | true =>
    simp only [gtlvsDecode, if_true, decodeOrdered]
    exact (ordered_ends hdec _).1 table [] _ (fun _ h => h) hc (by rw [hleft]; simp [fresh])

/-- C18, nested IEs: an entry with nested IEs is a decoder that ends, so C18 applies to the surrounding
table, at any depth. -/
theorem C18_nested_ends (cfg : Cfg) (hc : cfg.Consumes) (ti : TagInst) (kind : Kind) (ordered : Bool)
    (inner : List (Coding A)) (hdec : ∀ c ∈ inner, ∀ d, c.dec = some d → ∀ p n, d p n ≠ .diverge) :
    ∀ d, (nestedCoding ti kind cfg ordered inner).dec = some d → ∀ p n, d p n ≠ .diverge := by
  intro d hd p n
  simp only [nestedCoding, Option.some.injEq] at hd
  subst hd
  have := C18_decoding_ends cfg hc p n ordered inner hdec
  simp only [fresh] at this
  simp only
  cases hg : gtlvsDecode { cfg := cfg, mem := p, srcLen := n } ordered (some inner) <;>
    rw [hg] at this <;> simp at this ⊢

-- Both library configurations qualify; a table with raw IEs, nested or not, has decoders that end.
example : ∀ d, (nestedCoding { tag := 7 } (.multi 2 1) t8l8v true rawTable).dec = some d →
    ∀ p n, d p n ≠ .diverge := by
  apply C18_nested_ends t8l8v (lib_consumes .w8)
  intro c hc d hd p n
  have : ∀ tag kind, c = raw tag kind → d p n ≠ .diverge := by
    rintro tag kind rfl
    simp only [raw, leafCoding, Option.some.injEq] at hd
    subst hd
    simp only [rdN]
    split <;> simp
  simp [rawTable] at hc
  rcases hc with h | h | h <;> exact this _ _ h
/-- A configuration that takes no octets is a real danger: the loop does not end. -/
example : gtlvsDecode (fresh { t8l8v with loadTl := fun _ _ => .ok { ti := { tag := 9 }, len := 0, hdr := 0 } }
    [0, 0, 0] 3) false (some rawTable) = .diverge := rfl

end Verif.Props
