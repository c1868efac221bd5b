/- Lemmas: decoding to memory does what decoding to slots does (no property theorems here). -/
import Verif.LayoutSim

namespace Verif
open Spec

variable {A : Type} [DecidableEq A]

/-- An entry, with and without offsets. -/
abbrev ent (x : Place × MTy A) : MCoding A := x.2.entry x.1
omit [DecidableEq A] in
abbrev slo (x : Place × MTy A) : Coding A := slotOf x.1 x.2

omit [DecidableEq A] in
theorem cap_pos {x : Place × MTy A} (h : EntFits x) : 0 < x.1.kind.cap := by
  cases hk : x.1.kind with
  | mand => decide
  | opt => decide
  | multi max mand => exact (h.1 _ _ hk).1

/-! ### Unordered -/

/-- seen_ie_coding_entries[] says which entries have values. -/
def SeenIs (seen : List Nat) (ss : Struct A) (idx : Nat) : Prop :=
  ∀ i s, ss[i]? = some s → (seen.contains (idx + i) = true ↔ s ≠ [])

omit [DecidableEq A] in
theorem SeenIs.tail {seen : List Nat} {s : List (Val A)} {ss idx} (h : SeenIs seen (s :: ss) idx) : SeenIs seen ss (idx + 1) := by
  intro i t ht
  have := h (i + 1) t (by simpa using ht)
  rwa [show idx + (i + 1) = idx + 1 + i from by omega] at this

theorem findM_ok {L : List (Place × MTy A)} {S obj : Nat} {m : Mem A} {ss} (h : Here L S obj m ss) (seen : List Nat) (ti : TagInst)
    {L2 : List (Place × MTy A)} {s2} (h2 : All2 (fun x s => EntOk x (bytes m obj) s) L2 s2) :
    ∀ idx mx, (∀ x ∈ L2, x ∈ L) → SeenIs seen s2 idx →
    findM m obj seen ti (L2.map ent) idx mx = .ok (findSlot ti (L2.map slo) s2 idx mx) := by
  induction h2 with
  | nil => intro idx mx _ _; simp only [List.map_nil, findM, findSlot]
  | @cons x s L2 s2 hx h2 ih =>
    intro idx mx hm hseen
    have ih := fun mx => ih (idx + 1) mx (fun y hy => hm y (List.mem_cons_of_mem _ hy)) hseen.tail
    have hs0 := hseen 0 s (by simp)
    simp only [Nat.add_zero] at hs0
    simp only [List.map_cons, findM, findSlot, ih]
    rw [filled_ok h (hm x List.mem_cons_self) hx]
    simp only [ent, slo, entry_ti, entry_kind, slotOf_ti, slotOf_kind]
    split
    · rfl
    · cases hk : x.1.kind with
      | mand =>
        simp only [Res.bind_ok']
        by_cases hi : idx ≥ maxCodings
        · rw [if_pos hi, if_pos hi]
        · rw [if_neg hi, if_neg hi]
          by_cases hs : s = []
          · have : ¬ (seen.contains idx = true) := fun h' => hs0.1 h' hs
            rw [if_neg this, if_neg (by simp [hs])]
          · rw [if_pos (hs0.2 hs), if_pos (by simp [hs])]
      | opt =>
        simp only [Res.bind_ok']
        by_cases hs : s.length = 0
        · rw [if_neg (by rw [hs]; decide), if_neg (by simp [hs])]
        · rw [if_pos (by simp only [Kind.cap]; omega), if_pos hs]
      | multi max mand =>
        simp only [Res.bind_ok']
        by_cases hs : s.length ≥ max
        · rw [if_pos hs, if_pos (by simpa only [Kind.cap] using hs)]
        · rw [if_neg hs, if_neg (by simpa only [Kind.cap] using hs)]

omit [DecidableEq A] in
theorem All2.at {α β} {R : α → β → Prop} {l : List α} {l' : List β} (h : All2 R l l') {i : Nat} {a} (ha : l[i]? = some a) :
    ∃ b, l'[i]? = some b ∧ R a b := by
  induction h generalizing i with
  | nil => simp at ha
  | cons hx _ ih =>
    cases i with
    | zero => simp at ha; subst ha; exact ⟨_, rfl, hx⟩
    | succ i => simpa using ih (by simpa using ha)

omit [DecidableEq A] in
theorem list_split {α} {l : List α} {i : Nat} {a} (h : l[i]? = some a) :
    ∃ l1 l2, l = l1 ++ a :: l2 ∧ l1.length = i := by
  induction l generalizing i with
  | nil => simp at h
  | cons b l ih =>
    cases i with
    | zero => simp at h; subst h; exact ⟨[], l, rfl, rfl⟩
    | succ i =>
      obtain ⟨l1, l2, rfl, rfl⟩ := ih (by simpa using h)
      exact ⟨b :: l1, l2, rfl, rfl⟩

omit [DecidableEq A] in
/-- What an entry found by the search has: room. -/
theorem findSlot_room (ti : TagInst) : ∀ (cs : List (Coding A)) (ss : Struct A) (idx mx i : Nat),
    findSlot ti cs ss idx mx = .slot i → ∃ j c s, i = idx + j ∧ cs[j]? = some c ∧ ss[j]? = some s ∧
      (s.length < c.kind.cap ∨ (s = [] ∧ c.kind.cap = 1)) ∧ (c.kind = .mand ∨ c.kind = .opt → s = []) := by
  intro cs
  induction cs with
  | nil => intro ss idx mx i h; simp [findSlot] at h
  | cons c cs ih =>
    intro ss idx mx i h
    cases ss with
    | nil => simp [findSlot] at h
    | cons s ss =>
      have step : ∀ mx, findSlot ti cs ss (idx + 1) mx = .slot i → ∃ j c' s', i = idx + j ∧ (c :: cs)[j]? = some c' ∧
          (s :: ss)[j]? = some s' ∧ (s'.length < c'.kind.cap ∨ (s' = [] ∧ c'.kind.cap = 1)) ∧
          (c'.kind = .mand ∨ c'.kind = .opt → s' = []) := by
        intro mx h
        obtain ⟨j, c', s', h1, h2, h3, h4⟩ := ih ss (idx + 1) mx i h
        exact ⟨j + 1, c', s', by omega, by simpa using h2, by simpa using h3, h4⟩
      simp only [findSlot] at h
      split at h
      · exact step _ h
      · cases hk : c.kind with
        | mand =>
          rw [hk] at h
          simp only at h
          split at h
          · cases h
          · split at h
            · exact step _ h
            · injection h with h
              have : s = [] := List.eq_nil_of_length_eq_zero (by omega)
              exact ⟨0, c, s, by omega, rfl, rfl, .inr ⟨this, by rw [hk]; rfl⟩, fun _ => this⟩
        | opt =>
          rw [hk] at h
          simp only at h
          split at h
          · exact step _ h
          · injection h with h
            have : s = [] := List.eq_nil_of_length_eq_zero (by omega)
            exact ⟨0, c, s, by omega, rfl, rfl, .inr ⟨this, by rw [hk]; rfl⟩, fun _ => this⟩
        | multi max mand =>
          rw [hk] at h
          simp only at h
          split at h
          · exact step _ h
          · injection h with h
            refine ⟨0, c, s, by omega, rfl, rfl, .inl (by rw [hk]; simp only [Kind.cap]; omega), fun h' => ?_⟩
            rw [hk] at h'; simp at h'

/-- The array index of the next element is the number of elements there are. -/
theorem next_len {L : List (Place × MTy A)} {S obj : Nat} {m : Mem A} {ss} (h : Here L S obj m ss) {x} (hx : x ∈ L)
    {s} (hs : EntOk x (bytes m obj) s) (hc : s.length < x.1.kind.cap) :
    (ent x).next m obj = .ok s.length := by
  rw [next_ok h hx hs]
  cases hk : x.1.kind with
  | mand => rw [hk] at hc; simp only [Kind.cap] at hc; simp; omega
  | opt => rw [hk] at hc; simp only [Kind.cap] at hc; simp; omega
  | multi max mand => rfl

/-- Decode one value to the next element of a member, and count it. -/
theorem put_ok {L1 L2 : List (Place × MTy A)} {x} {S obj : Nat} {m : Mem A} {s1 s s2}
    (h : Here (L1 ++ x :: L2) S obj m (s1 ++ s :: s2)) (hl : L1.length = s1.length) (hc : s.length < x.1.kind.cap)
    (law : TyLaw x.2) (p : List UInt8) (n : Nat) :
    match x.2.decV p n with
    | .ok v => ∃ m1 m2, x.2.decM (obj + (ent x).elem s.length) p n m = .ok m1 ∧ (ent x).mark m1 obj = .ok m2 ∧
        OnlyIn (obj, S) m m2 ∧ Here (L1 ++ x :: L2) S obj m2 (s1 ++ (s ++ [v]) :: s2)
    | .err e => ∃ m1, x.2.decM (obj + (ent x).elem s.length) p n m = .err e m1 ∧ OnlyIn (obj, S) m m1
    | .abort => x.2.decM (obj + (ent x).elem s.length) p n m = .abort
    | .ub => x.2.decM (obj + (ent x).elem s.length) p n m = .ub
    | .diverge => x.2.decM (obj + (ent x).elem s.length) p n m = .diverge := by
  have hx : x ∈ L1 ++ x :: L2 := by simp
  have hroom := h.room
  have hsmall := h.small
  have hei := elem_inside h.fits hx hc
  have hold : EntOk x (bytes m obj) s ∧ EntFree x (bytes m obj) s := by
    refine All2.get h.inv (i := L1.length) (by simp) ?_
    rw [hl]; simp
  rw [elem_eq h.fits hx (by omega) hc]
  have hz := hold.2 s.length (Nat.le_refl _) hc
  rw [from_bytes] at hz
  have := law m (obj + (x.1.ofs + s.length * x.1.pitch)) p n (by omega) hsmall hz
  cases hd : x.2.decV p n with
  | ok v =>
    rw [hd] at this
    obtain ⟨m1, e, ho, hv⟩ := this
    obtain ⟨m2, e2, ho2, h2⟩ := mark_ok h hl hc ho hv
    exact ⟨m1, m2, e, e2, ho2, h2⟩
  | err e =>
    rw [hd] at this
    obtain ⟨m1, e, ho⟩ := this
    exact ⟨m1, e, OnlyIn.mono ho (by simp only; omega) (by simp only; omega)⟩
  | abort => rw [hd] at this; exact this
  | ub => rw [hd] at this; exact this
  | diverge => rw [hd] at this; exact this

omit [DecidableEq A] in
theorem seenIs_set {seen : List Nat} {ss : Struct A} {idx : Nat} {s'} (h : SeenIs seen ss 0) (hn : s' ≠ []) :
    SeenIs (idx :: seen) (ss.set idx s') 0 := by
  intro i t ht
  simp only [Nat.zero_add]
  rw [List.getElem?_set] at ht
  by_cases hi : idx = i
  · subst hi
    rw [if_pos rfl] at ht
    split at ht
    · cases ht
      simp [hn]
    · cases ht
  · rw [if_neg hi] at ht
    have := h i t ht
    simp only [Nat.zero_add] at this
    rw [← this]
    simp only [List.contains_cons, Bool.or_eq_true, beq_iff_eq]
    constructor
    · rintro (h1 | h1)
      · exact absurd h1.symm hi
      · exact h1
    · exact .inr

/-- Outcome of decoding IEs to memory. -/
def LoopOk (L : List (Place × MTy A)) (S obj : Nat) (m : Mem A) (o : Out (Mem A × List Nat)) : Res (Struct A) → Prop
  | .ok ss => ∃ m' seen, o = .ok (m', seen) ∧ OnlyIn (obj, S) m m' ∧ Here L S obj m' ss ∧ SeenIs seen ss 0
  | .err e => ∃ m' seen, o = .err e (m', seen) ∧ OnlyIn (obj, S) m m'
  | .abort => o = .abort
  | .ub => o = .ub
  | .diverge => o = .diverge

theorem decodeOneM_ok {L : List (Place × MTy A)} {S obj : Nat} {m : Mem A} {ss} (h : Here L S obj m ss) {seen : List Nat}
    (hs : SeenIs seen ss 0) (law : ∀ x ∈ L, TyLaw x.2) (ti : TagInst) (p : List UInt8) (n : Nat) :
    LoopOk L S obj m (decodeOneM (L.map ent) obj ti p n m seen) (decodeOne (L.map slo) ss ti p n) := by
  unfold decodeOneM decodeOne
  rw [findM_ok h seen ti (h.inv.imp_mem fun _ _ _ hb => hb.1) 0 0 (fun _ hx => hx) hs]
  simp only [Res.out]
  cases hf : findSlot ti (L.map slo) ss 0 0 with
  | tooMany => exact ⟨m, seen, rfl, OnlyIn.refl _ _⟩
  | full mx =>
    simp only
    split
    · exact ⟨m, seen, rfl, OnlyIn.refl _ _⟩
    · exact ⟨m, seen, rfl, OnlyIn.refl _ _, h, hs⟩
  | slot idx =>
    obtain ⟨j, c, s, rfl, hcj, hsj, hroom, hemp⟩ := findSlot_room ti _ _ _ _ _ hf
    simp only [Nat.zero_add] at hf ⊢
    rw [List.getElem?_map] at hcj
    obtain ⟨x, hxj, rfl⟩ := Option.map_eq_some_iff.1 hcj
    have hx : x ∈ L := List.mem_of_getElem? hxj
    have hc : s.length < x.1.kind.cap := by
      simp only [slo, slotOf_kind] at hroom
      rcases hroom with h1 | ⟨rfl, h1⟩
      · exact h1
      · simp [h1]
    simp only [List.getElem?_map, hxj, hsj, Option.map_some]
    have hok := (All2.get h.inv hxj hsj).1
    rw [next_len h hx hok hc]
    simp only [ent, slo, entry_dec, slotOf_dec, slotOf_kind]
    obtain ⟨L1, L2, rfl, hj⟩ := list_split hxj
    obtain ⟨s1, s2, rfl, hj2⟩ := list_split hsj
    have hput := put_ok h (hj.trans hj2.symm) hc (law x hx) p n
    cases hd : x.2.decV p n with
    | ok v =>
      rw [hd] at hput
      obtain ⟨m1, m2, e1, e2, ho, h2⟩ := hput
      simp only [ent] at e1 e2
      rw [e1]
      simp only [Res.bind_ok']
      rw [e2]
      simp only [storeVal, if_pos hc, Res.bind_ok']
      have hset : (s1 ++ s :: s2).set j (s ++ [v]) = s1 ++ (s ++ [v]) :: s2 := by
        rw [← hj2]; simp
      split
      · exact ⟨_, _, rfl, ho⟩
      · refine ⟨_, _, rfl, ho, ?_, ?_⟩
        · rw [hset]; exact h2
        · exact seenIs_set hs (by simp)
    | err e =>
      rw [hd] at hput
      obtain ⟨m1, e1, ho⟩ := hput
      simp only [ent] at e1
      rw [e1]
      exact ⟨_, _, rfl, ho⟩
    | abort => rw [hd] at hput; simp only [ent] at hput; rw [hput]; rfl
    | ub => rw [hd] at hput; simp only [ent] at hput; rw [hput]; rfl
    | diverge => rw [hd] at hput; simp only [ent] at hput; rw [hput]; rfl

theorem decodeLoopM_ok {L : List (Place × MTy A)} {S obj : Nat} (law : ∀ x ∈ L, TyLaw x.2) :
    ∀ (fuel : Nat) (g : Load) (m : Mem A) (ss : Struct A) (seen : List Nat), Here L S obj m ss → SeenIs seen ss 0 →
    LoopOk L S obj m (decodeLoopM (L.map ent) obj fuel g m seen) (decodeUnorderedLoop (L.map slo) fuel ss g) := by
  intro fuel
  induction fuel with
  | zero => intro g m ss seen _ _; rfl
  | succ fuel ih =>
    intro g m ss seen h hs
    unfold decodeLoopM decodeUnorderedLoop
    cases hg : loadNext g with
    | ok g' =>
      simp only
      cases hv : g'.val with
      | none => exact ⟨m, seen, rfl, OnlyIn.refl _ _, h, hs⟩
      | some v =>
        simp only
        have h1 := decodeOneM_ok h hs law g'.ti g'.valueMem g'.len
        cases hd : decodeOne (L.map slo) ss g'.ti g'.valueMem g'.len with
        | ok ss' =>
          rw [hd] at h1
          obtain ⟨m', seen', e, ho, h', hs'⟩ := h1
          rw [e]
          simp only [Res.bind_ok']
          have h2 := ih g' m' ss' seen' h' hs'
          cases hl : decodeUnorderedLoop (L.map slo) fuel ss' g' with
          | ok ss2 =>
            rw [hl] at h2
            obtain ⟨m2, seen2, e2, ho2, h3⟩ := h2
            exact ⟨m2, seen2, e2, OnlyIn.trans ho ho2, h3⟩
          | err e3 =>
            rw [hl] at h2
            obtain ⟨m2, seen2, e2, ho2⟩ := h2
            exact ⟨m2, seen2, e2, OnlyIn.trans ho ho2⟩
          | abort => rw [hl] at h2; exact h2
          | ub => rw [hl] at h2; exact h2
          | diverge => rw [hl] at h2; exact h2
        | err e =>
          rw [hd] at h1
          obtain ⟨m', seen', e, ho⟩ := h1
          rw [e]
          exact ⟨_, _, rfl, ho⟩
        | abort => rw [hd] at h1; rw [h1]; rfl
        | ub => rw [hd] at h1; rw [h1]; rfl
        | diverge => rw [hd] at h1; rw [h1]; rfl
    | err e g' => exact ⟨_, _, rfl, OnlyIn.refl _ _⟩
    | abort => rfl
    | ub => rfl
    | diverge => rfl

theorem checkM_ok {L : List (Place × MTy A)} {S obj : Nat} {m : Mem A} {ss} (h : Here L S obj m ss) (seen : List Nat)
    {L2 : List (Place × MTy A)} {s2} (h2 : All2 (fun x s => EntOk x (bytes m obj) s) L2 s2) :
    ∀ idx, (∀ x ∈ L2, x ∈ L) → SeenIs seen s2 idx →
    checkM m obj seen (L2.map ent) idx = checkMandatory (L2.map slo) s2 idx := by
  induction h2 with
  | nil => intro idx _ _; simp only [List.map_nil, checkM, checkMandatory]
  | @cons x s L2 s2 hx h2 ih =>
    intro idx hm hseen
    have ih := ih (idx + 1) (fun y hy => hm y (List.mem_cons_of_mem _ hy)) hseen.tail
    have hs0 := hseen 0 s (by simp)
    simp only [Nat.add_zero] at hs0
    have hfill := filled_ok h (hm x List.mem_cons_self) hx
    unfold MCoding.filled at hfill
    simp only [List.map_cons, checkM, checkMandatory, ih]
    simp only [ent, slo, entry_kind, slotOf_kind] at hfill ⊢
    cases hk : x.1.kind with
    | mand =>
      simp only
      by_cases hi : idx ≥ maxCodings
      · rw [if_pos hi, if_pos hi]
      · rw [if_neg hi, if_neg hi]
        by_cases hs : s = []
        · have : ¬ (seen.contains idx = true) := fun h' => hs0.1 h' hs
          rw [if_neg this, if_pos (by simp [hs])]
        · rw [if_pos (hs0.2 hs), if_neg (by simp [hs])]
    | opt => rfl
    | multi max mand =>
      rw [hk] at hfill
      simp only at hfill ⊢
      cases h1 : membof m obj ((x.2.entry x.1).countOfs) with
      | ok a =>
        rw [h1] at hfill
        simp only [Res.bind_ok'] at hfill ⊢
        cases h3 : m.count a with
        | ok k =>
          rw [h3] at hfill
          simp only [Res.bind_ok', Res.ok.injEq, Option.some.injEq] at hfill ⊢
          rw [hfill]
        | _ => rw [h3] at hfill; cases hfill
      | _ => rw [h1] at hfill; cases hfill

omit [DecidableEq A] in
/-- A zeroed struct. -/
theorem here_zero {L : List (Place × MTy A)} {S obj : Nat} {m : Mem A} (hf : ListFits L S) (h1 : obj + S ≤ m.size)
    (h2 : m.size < 2 ^ 32) (hz : AllZero (bytes m obj) S) : Here L S obj m (L.map fun _ => []) :=
  ⟨h1, h2, hf, inv_zero L hf hz⟩

omit [DecidableEq A] in
theorem seenIs_empty (L : List (Place × MTy A)) : SeenIs [] ((L.map fun _ => []) : Struct A) 0 := by
  intro i s hs
  rw [List.getElem?_map] at hs
  obtain ⟨_, _, rfl⟩ := Option.map_eq_some_iff.1 hs
  simp

theorem unorderedM_ok {L : List (Place × MTy A)} {S obj : Nat} {m : Mem A} (hf : ListFits L S) (hS : 0 < S) (h1 : obj + S ≤ m.size)
    (h2 : m.size < 2 ^ 32) (hz : AllZero (bytes m obj) S) (law : ∀ x ∈ L, TyLaw x.2) (g : Load) :
    Agrees (obj, S) m (fun m' ss => Here L S obj m' ss) (decodeUnorderedM (L.map ent) obj g m)
      (decodeUnordered (L.map slo) g) := by
  unfold decodeUnorderedM decodeUnordered
  rw [membof_ok (by omega)]
  simp only [Res.out]
  have h := decodeLoopM_ok law (g.srcLen + 2) g.start m _ _ (here_zero hf h1 h2 hz) (seenIs_empty L)
  have he : emptyStruct (L.map slo) = L.map fun _ => ([] : List (Val A)) := by simp [emptyStruct]
  rw [he]
  cases hl : decodeUnorderedLoop (L.map slo) (g.srcLen + 2) (L.map fun _ => []) g.start with
  | ok ss =>
    rw [hl] at h
    obtain ⟨m', seen, e, ho, h', hs⟩ := h
    rw [e]
    simp only [Res.bind_ok']
    rw [checkM_ok h' seen (h'.inv.imp_mem fun _ _ _ hb => hb.1) 0 (fun _ hx => hx) hs]
    cases checkMandatory (L.map slo) ss 0 with
    | ok u => exact ⟨m', rfl, ho, h'⟩
    | err e => exact ⟨m', rfl, ho⟩
    | abort => rfl
    | ub => rfl
    | diverge => rfl
  | err e =>
    rw [hl] at h
    obtain ⟨m', seen, e, ho⟩ := h
    rw [e]
    exact ⟨m', rfl, ho⟩
  | abort => rw [hl] at h; rw [h]; rfl
  | ub => rw [hl] at h; rw [h]; rfl
  | diverge => rw [hl] at h; rw [h]; rfl

end Verif
