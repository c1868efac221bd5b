/-
Property theorems about ordered decoding: C11 (ordered), C13 (complete outcome), C73 (loss of IEs)
(src/libosmo-gtlv/gtlv_dec_enc.c:276-420).
-/
import Verif.PropsDecEnc2
import Verif.OrdSpec

namespace Verif.Props
open Verif Spec

variable {A : Type}

/-- C11 for ordered decoding: whatever is decoded, no array element beyond a member's capacity is written. -/
theorem C11_ordered_never_overflows (w : Width) (table : List (Coding A)) (mem : List UInt8) (len : Nat)
    (hw : len ≤ mem.length) (hroom : ∀ c ∈ table, most c.kind ≠ 0)
    (hdec : ∀ c ∈ table, ∀ d, c.dec = some d → ∀ p n, n ≤ p.length → d p n ≠ .ub) :
    gtlvsDecode (fresh w.cfg mem len) true (some table) ≠ .ub := by
  simp only [gtlvsDecode, if_true]
  refine decodeOrdered_no_ub (Width.lawful w) table (fresh w.cfg mem len) rfl hw ?_ hdec
  intro c hc
  have := hroom c hc
  cases hk : c.kind <;> rw [hk] at this <;> simp [most, Kind.cap] at this ⊢
  omega

/-- C11: a repeated IE for which the struct has no room at all (count_max 0) is written nevertheless, if its tag also
has an earlier entry that is full. -/
theorem C11_ordered_needs_room :
    gtlvsDecode (fresh t8l8v [1, 0, 1, 0] 4) true (some [raw 1 (.multi 1 0), raw 1 (.multi 0 0)]) = .ub := rfl

theorem raw_no_ub {tag kind} : ∀ d, (raw tag kind).dec = some d → ∀ p n, n ≤ p.length → d p n ≠ .ub := by
  intro d hd p n hn
  simp only [raw, leafCoding, Option.some.injEq] at hd
  subst hd
  simp [rdN, hn]

example : gtlvsDecode (fresh t8l8v [3, 0, 3, 0, 3, 0] 6) true (some [raw 3 (.multi 2 1)]) = .err .ENOTSUP ∧
    (∀ c ∈ [raw 3 (.multi 2 1)], most c.kind ≠ 0) := ⟨rfl, by decide⟩
example : gtlvsDecode (fresh t8l8v [1, 1, 5, 3, 0, 3, 0, 3, 0] 9) true (some rawTable) ≠ .ub :=
  C11_ordered_never_overflows .w8 rawTable _ _ (by decide) (by decide) (by
    intro c hc
    simp only [rawTable, List.mem_cons, List.not_mem_nil, or_false] at hc
    rcases hc with rfl | rfl | rfl <;> exact raw_no_ub)

/-- C13 and C73: the outcome of ordered decoding of any TLV structure, success or error, for tables with distinct tags. -/
theorem C13_ordered_outcome (w : Width) (table : List (Coding A)) (hdt : DistinctTags table)
    (hloc : ∀ c ∈ table, LooksOnlyAtIe c) (ies : List Ie) (hfit : ∀ x ∈ ies, w.Fits x) (rest : List UInt8) :
    gtlvsDecode (fresh w.cfg (w.octets ies ++ rest) (w.octets ies).length) true (some table) =
      inOrder table (ies.map fun x => (tagOf x, x.2)) := by
  obtain ⟨e1, e2⟩ := Width.octets_eq w ies hfit
  simp only [gtlvsDecode, if_true, fresh]
  rw [← e1]
  exact decodeOrdered_spec (Width.lawful w) hdt hloc e2 rest

-- The three kinds of entries, an unknown IE, and IEs left over at the end.
example : DistinctTags rawTable ∧ (∀ c ∈ rawTable, LooksOnlyAtIe c) := by
  refine ⟨by unfold DistinctTags; decide, ?_⟩
  intro c hc
  simp only [rawTable, List.mem_cons, List.not_mem_nil, or_false] at hc
  rcases hc with rfl | rfl | rfl <;> exact raw_local _ _
example : inOrder rawTable [({ tag := 1 }, [5]), ({ tag := 3 }, []), ({ tag := 2 }, [7])] = .err .ENOENT := rfl
example : inOrder rawTable [({ tag := 9 }, [4]), ({ tag := 1 }, [5]), ({ tag := 3 }, []), ({ tag := 3 }, [6]), ({ tag := 8 }, [7])] =
    .ok [[.leaf [5]], [], [.leaf [], .leaf [6]]] := rfl
example : inOrder rawTable [({ tag := 1 }, [5]), ({ tag := 3 }, []), ({ tag := 3 }, []), ({ tag := 3 }, [])] =
    .err .ENOTSUP := rfl

/-! ## C73: IEs that get lost -/

/-- C73 does not hold: an unknown IE ends a repetition, and what follows is ignored. -/
theorem C73_counterexample_gap :
    gtlvsDecode (fresh t8l8v [3, 1, 7, 9, 0, 3, 1, 8] 8) true (some [raw 3 (.multi 2 1)]) = .ok [[.leaf [7]]] ∧
    gtlvsDecode (fresh t8l8v [3, 1, 7, 9, 0, 3, 1, 8] 8) false (some [raw 3 (.multi 2 1)]) =
      .ok [[.leaf [7], .leaf [8]]] := ⟨rfl, rfl⟩

/-- C73 does not hold: the second of two IEs is ignored if only one is defined; unordered decoding reports this. -/
theorem C73_counterexample_twice :
    gtlvsDecode (fresh t8l8v [1, 1, 7, 1, 1, 8] 6) true (some [raw 1 .mand]) = .ok [[.leaf [7]]] ∧
    gtlvsDecode (fresh t8l8v [1, 1, 7, 1, 1, 8] 6) false (some [raw 1 .mand]) = .err .ENOTSUP := ⟨rfl, rfl⟩

/-- The IEs appear as the table defines them: those of the first entry, then those of the second, and so on, and
only entries for repeated IEs have more than one. -/
inductive Arranged : List (Coding A) → List Ie → Prop
  | nil : Arranged [] []
  | cons {c cs l l'} : (∀ x ∈ l, tagOf x = c.ti) → ((∀ mx mn, c.kind ≠ .multi mx mn) → l.length ≤ 1) →
      Arranged cs l' → Arranged (c :: cs) (l ++ l')

theorem memberValues_ok {c : Coding A} {n : Nat} {l : List (List UInt8)} {vs} (h : memberValues c n l = .ok vs) :
    All2 (fun x v => Decodes c x v) l vs ∧ (l ≠ [] → n + l.length ≤ most c.kind) := by
  induction l generalizing n vs with
  | nil => simp only [memberValues, Res.ok.injEq] at h; subst h; exact ⟨.nil, fun h => absurd rfl h⟩
  | cons x xs ih =>
    rw [memberValues] at h
    split at h
    · cases h
    · rename_i hn
      cases hd : c.dec with
      | none => rw [hd] at h; cases h
      | some d =>
        rw [hd] at h
        simp only [Res.bind_eq_ok_iff] at h
        obtain ⟨v, h1, vs', h2, h3⟩ := h
        cases h3
        obtain ⟨a, b⟩ := ih h2
        refine ⟨.cons ⟨d, hd, h1⟩ a, fun _ => ?_⟩
        by_cases hx : xs = []
        · subst hx; simp only [List.length_cons, List.length_nil]; omega
        · have := b hx; simp only [List.length_cons]; omega

theorem Arranged.tags {table : List (Coding A)} {ies} (h : Arranged table ies) : ∀ x ∈ ies, tagOf x ∈ table.map (·.ti) := by
  induction h with
  | nil => simp
  | cons h1 _ _ ih =>
    intro x hx
    rcases List.mem_append.mp hx with hx | hx
    · simp [h1 x hx]
    · exact List.mem_cons_of_mem _ (ih x hx)

/-- C73 for IEs in the order of the table: if ordered decoding succeeds, every IE has been decoded to its member, in order.
Missing from C73: IEs in another order, among unknown IEs, or more than one of an IE that is not repeated; there the claim is
false (see the counterexamples). -/
theorem C73_nothing_lost_partial (w : Width) (table : List (Coding A)) (hdt : DistinctTags table)
    (hloc : ∀ c ∈ table, LooksOnlyAtIe c) (ies : List Ie) (hfit : ∀ x ∈ ies, w.Fits x) (harr : Arranged table ies)
    (rest : List UInt8) (s : Struct A)
    (h : gtlvsDecode (fresh w.cfg (w.octets ies ++ rest) (w.octets ies).length) true (some table) = .ok s) :
    s.length = table.length ∧
    ∀ (i : Nat) c vs, table[i]? = some c → s[i]? = some vs →
      All2 (fun x v => Decodes c x.2 v) (withTag c.ti ies) vs := by
  rw [C13_ordered_outcome w table hdt hloc ies hfit rest] at h
  clear hloc hfit rest
  induction harr generalizing s with
  | nil => simp only [inOrder, Res.ok.injEq] at h; subst h; simp
  | @cons c cs l l' h1 h2 harr ih =>
    simp only [DistinctTags, List.map_cons, List.nodup_cons] at hdt
    have hnot : ∀ x ∈ l', tagOf x ≠ c.ti := fun x hx hxt => hdt.1 (hxt ▸ harr.tags x hx)
    have hw0 : ∀ c' ∈ cs, withTag c'.ti (l ++ l') = withTag c'.ti l' := by
      intro c' hc'
      unfold withTag
      rw [List.filter_append]
      have : l.filter (fun x => decide (tagOf x = c'.ti)) = [] := by
        rw [List.filter_eq_nil_iff]
        intro x hx
        simp only [decide_eq_true_eq]
        intro hxt
        exact hdt.1 (by rw [← h1 x hx, hxt]; exact List.mem_map_of_mem hc')
      rw [this, List.nil_append]
    have hw1 : withTag c.ti (l ++ l') = l := by
      unfold withTag
      rw [List.filter_append, List.filter_eq_self.mpr (by intro x hx; simpa using h1 x hx),
        List.filter_eq_nil_iff.mpr (by intro x hx; simpa using hnot x hx), List.append_nil]
    have fin : ∀ vs ss, inOrder cs (l'.map fun x => (tagOf x, x.2)) = .ok ss → s = vs :: ss →
        All2 (fun (x : Ie) v => Decodes c x.2 v) l vs → s.length = (c :: cs).length ∧
        ∀ (i : Nat) c' vs, (c :: cs)[i]? = some c' → s[i]? = some vs →
          All2 (fun x v => Decodes c' x.2 v) (withTag c'.ti (l ++ l')) vs := by
      rintro vs ss e1 rfl e3
      obtain ⟨k1, k2⟩ := ih hdt.2 ss e1
      refine ⟨by simp [k1], ?_⟩
      intro i c' vs' hc hv
      cases i with
      | zero =>
        simp only [List.getElem?_cons_zero, Option.some.injEq] at hc hv
        subst hc hv
        rw [hw1]; exact e3
      | succ i =>
        simp only [List.getElem?_cons_succ] at hc hv
        rw [hw0 c' (List.mem_of_getElem? hc)]
        exact k2 i c' vs' hc hv
    rw [List.map_append] at h
    have hnot' : ∀ x ∈ l'.map (fun x => (tagOf x, x.2)), x.1 ≠ c.ti := by
      intro x hx
      obtain ⟨y, hy, rfl⟩ := List.mem_map.mp hx
      exact hnot y hy
    cases l with
    | nil =>
      simp only [List.map_nil, List.nil_append, inOrder] at h
      rw [dropWhile_none hnot'] at h
      simp only at h
      split at h
      · cases h
      · rw [Res.bind_eq_ok_iff] at h
        obtain ⟨ss, e1, e2⟩ := h
        cases e2
        exact fin [] ss e1 rfl .nil
    | cons x l =>
      have hx : tagOf x = c.ti := h1 x (by simp)
      simp only [List.map_cons, List.cons_append, inOrder, List.dropWhile_cons, hx, ne_eq, not_true_eq_false, decide_false,
        Bool.false_eq_true, if_false] at h
      have hrun : runLength c (l.map (fun x => (tagOf x, x.2)) ++ l'.map (fun x => (tagOf x, x.2))) = l.length := by
        unfold runLength
        cases hk : c.kind with
        | mand => have := h2 (by simp [hk]); simp at this; simp [this]
        | opt => have := h2 (by simp [hk]); simp at this; simp [this]
        | multi mx mn =>
          simp only
          rw [List.takeWhile_append_of_pos (by
            intro y hy
            obtain ⟨z, hz, rfl⟩ := List.mem_map.mp hy
            simpa using h1 z (by simp [hz]))]
          have : (l'.map (fun x => (tagOf x, x.2))).takeWhile (fun x => decide (x.1 = c.ti)) = [] := by
            cases l' with
            | nil => rfl
            | cons y l' =>
              have := hnot y (by simp)
              simp [this]
          rw [this]; simp
      rw [hrun] at h
      have t1 : (l.map (fun x => (tagOf x, x.2)) ++ l'.map (fun x => (tagOf x, x.2))).take l.length =
          l.map (fun x => (tagOf x, x.2)) := List.take_left' (by simp)
      have t2 : (l.map (fun x => (tagOf x, x.2)) ++ l'.map (fun x => (tagOf x, x.2))).drop l.length =
          l'.map (fun x => (tagOf x, x.2)) := List.drop_left' (by simp)
      rw [t1, t2, Res.bind_eq_ok_iff] at h
      obtain ⟨vs, e1, h⟩ := h
      rw [Res.bind_eq_ok_iff] at h
      obtain ⟨ss, e2, e3⟩ := h
      cases e3
      refine fin vs ss e2 rfl ?_
      have := (memberValues_ok e1).1
      rw [List.map_map] at this
      have conv : ∀ (l : List Ie) (vs : List (Val A)), All2 (fun x v => Decodes c x v) (l.map (fun x => x.2)) vs →
          All2 (fun (x : Ie) v => Decodes c x.2 v) l vs := by
        intro l
        induction l with
        | nil => intro vs h; cases h; exact .nil
        | cons y l ih => intro vs h; cases h with | cons a b => exact .cons a (ih _ b)
      exact conv (x :: l) vs this

example : Arranged rawTable [(1, [5]), (3, []), (3, [6])] :=
  .cons (l := [(1, [5])]) (by decide) (fun _ => by decide)
    (.cons (l := []) (by decide) (fun _ => by decide) (.cons (l := [(3, []), (3, [6])]) (l' := []) (by decide)
      (fun h => absurd rfl (h 2 1)) .nil))
example : gtlvsDecode (fresh t8l8v (octets8 [(1, [5]), (3, []), (3, [6])] ++ []) (octets8 [(1, [5]), (3, []), (3, [6])]).length)
    true (some rawTable) = .ok [[.leaf [5]], [], [.leaf [], .leaf [6]]] := rfl

end Verif.Props
