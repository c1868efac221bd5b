/-
Unordered decoding against its specification for any table and any octets.
-/
import Verif.OrdAll
import Verif.SpecAnyOrd

namespace Verif
open Spec Props

variable {A : Type}

/-- The members for a tag hold `f tag` values, together, filled in the order of the table. -/
def Filled : List (RCoding A) → Struct A → (TagInst → Nat) → Prop
  | [], [], _ => True
  | c :: cs, s :: ss, f =>
    s.length = min c.c.kind.cap (f c.c.ti) ∧ Filled cs ss fun t => if t = c.c.ti then f t - c.c.kind.cap else f t
  | _, _, _ => False

theorem findSlot_filled (t : TagInst) : ∀ (cs : List (RCoding A)) (ss : Struct A) (f : TagInst → Nat) (idx m : Nat),
    Filled cs ss f → idx + cs.length ≤ maxCodings →
    findSlot t (unreported cs) ss idx m =
      match home t cs (f t) with
      | some (i, _) => .slot (idx + i)
      | none => .full (m + capacity t (unreported cs)) := by
  intro cs
  induction cs with
  | nil =>
    intro ss f idx m hf _
    cases ss with
    | nil => simp [findSlot, home, capacity]
    | cons s ss => exact hf.elim
  | cons c cs ih =>
    intro ss f idx m hf hl
    cases ss with
    | nil => exact hf.elim
    | cons s ss =>
      obtain ⟨hs, hf⟩ := hf
      simp only [List.length_cons] at hl
      have ih' := fun m => ih ss _ (idx + 1) m hf (by omega)
      have step : ∀ (n : Nat) (k : Nat) (m m' : Nat), m' = m + capacity t (unreported cs) →
          (match home t cs n with
            | some (i, _) => Found.slot (idx + 1 + i)
            | none => .full (m + capacity t (unreported cs))) =
          match (home t cs n).map fun (i, c) => (i + 1, c) with
            | some (i, _) => Found.slot (idx + i)
            | none => .full m' := by
        intro n k m m' hm
        cases home t cs n with
        | none => simp [hm]
        | some r => simp only [Option.map_some, Found.slot.injEq]; omega
      simp only [unreported, List.map_cons, findSlot, home]
      by_cases ht : c.c.ti = t
      · rw [if_neg (by simp [cmp_eq, ht]), if_pos ht, most_cap]
        subst ht
        simp only [if_true] at ih'
        have hc : capacity c.c.ti (unreported (c :: cs)) = c.c.kind.cap + capacity c.c.ti (unreported cs) := by
          simp [capacity, unreported, most_cap]
        simp only [unreported, List.map_cons] at hc ih' step
        rw [hc]
        have next := (ih' (m + c.c.kind.cap)).trans
          (step (f c.c.ti - c.c.kind.cap) 0 _ (m + (c.c.kind.cap + capacity c.c.ti (cs.map RCoding.c))) (by omega))
        by_cases hr : f c.c.ti < c.c.kind.cap
        · rw [if_pos hr]
          cases hk : c.c.kind with
          | opt => rw [hk] at hr hs; simp only [Kind.cap] at hr hs; simp [show s.length = 0 by omega]
          | mand =>
            rw [hk] at hr hs; simp only [Kind.cap] at hr hs; simp [show s.length = 0 by omega]
            omega
          | multi mx mn =>
            rw [hk] at hr hs; simp only [Kind.cap] at hr hs
            simp only
            rw [if_neg (by omega)]
            simp
        · rw [if_neg hr, ← next]
          cases hk : c.c.kind with
          | opt => rw [hk] at hr hs; simp only [Kind.cap] at hr hs; simp [show s.length = 1 by omega]
          | mand =>
            rw [hk] at hr hs; simp only [Kind.cap] at hr hs; simp [show s.length = 1 by omega]
            omega
          | multi mx mn =>
            rw [hk] at hr hs; simp only [Kind.cap] at hr hs
            simp only
            rw [if_pos (by omega)]
      · rw [if_pos (by simp [cmp_eq, ht]), if_neg ht]
        simp only [if_neg (fun h => ht (Eq.symm h) : ¬ t = c.c.ti)] at ih'
        have hc : capacity t (unreported (c :: cs)) = capacity t (unreported cs) := by
          simp [capacity, unreported, ht]
        simp only [unreported, List.map_cons] at hc ih' step
        rw [hc, ih' m]
        exact step _ 0 _ _ rfl

/-- One more IE with a tag. -/
def more (t : TagInst) (f : TagInst → Nat) : TagInst → Nat := fun x => if x = t then f x + 1 else f x

theorem Filled.congr : ∀ {cs : List (RCoding A)} {ss : Struct A} {f f' : TagInst → Nat}, Filled cs ss f → (∀ t, f t = f' t) →
    Filled cs ss f' := by
  intro cs ss f f' h e
  rw [show f' = f from (funext e).symm]
  exact h

theorem Filled.none (t : TagInst) : ∀ {cs : List (RCoding A)} {ss : Struct A} {f : TagInst → Nat}, Filled cs ss f →
    home t cs (f t) = none → Filled cs ss (more t f) := by
  intro cs
  induction cs with
  | nil => intro ss f h _; cases ss with
    | nil => trivial
    | cons s ss => exact h.elim
  | cons c cs ih =>
    intro ss f h hh
    cases ss with
    | nil => exact h.elim
    | cons s ss =>
      obtain ⟨hs, hf⟩ := h
      simp only [home] at hh
      by_cases ht : c.c.ti = t
      · subst ht
        rw [if_pos rfl, most_cap] at hh
        by_cases hr : f c.c.ti < c.c.kind.cap
        · rw [if_pos hr] at hh; cases hh
        · rw [if_neg hr, Option.map_eq_none_iff] at hh
          refine ⟨by simp only [more, if_true]; omega, ?_⟩
          have := ih hf (by simpa using hh)
          refine this.congr fun x => ?_
          simp only [more]
          by_cases hx : x = c.c.ti
          · subst hx; simp; omega
          · simp [hx]
      · rw [if_neg ht, Option.map_eq_none_iff] at hh
        refine ⟨by simp only [more, if_neg ht]; exact hs, ?_⟩
        have := ih hf (by simp only [if_neg (fun h => ht (Eq.symm h) : ¬ t = c.c.ti)]; exact hh)
        refine this.congr fun x => ?_
        simp only [more]
        by_cases hx : x = t
        · subst hx; simp only [if_true, if_neg (fun h => ht (Eq.symm h) : ¬ x = c.c.ti)]
        · simp [hx]

theorem Filled.some (t : TagInst) : ∀ {cs : List (RCoding A)} {ss : Struct A} {f : TagInst → Nat} {i : Nat} {c : RCoding A},
    Filled cs ss f → home t cs (f t) = some (i, c) →
    cs[i]? = some c ∧ c.c.ti = t ∧ ∃ s, ss[i]? = some s ∧ s.length < c.c.kind.cap ∧
      ∀ v, Filled cs (ss.set i (s ++ [v])) (more t f) := by
  intro cs
  induction cs with
  | nil => intro ss f i c _ h; cases h
  | cons d cs ih =>
    intro ss f i c h hh
    cases ss with
    | nil => exact h.elim
    | cons s ss =>
      obtain ⟨hs, hf⟩ := h
      simp only [home] at hh
      by_cases ht : d.c.ti = t
      · subst ht
        rw [if_pos rfl, most_cap] at hh
        by_cases hr : f d.c.ti < d.c.kind.cap
        · rw [if_pos hr] at hh
          simp only [Option.some.injEq, Prod.mk.injEq] at hh
          obtain ⟨rfl, rfl⟩ := hh
          refine ⟨rfl, rfl, s, rfl, by omega, fun v => ⟨by simp [more]; omega, ?_⟩⟩
          refine hf.congr fun x => ?_
          simp only [more]
          by_cases hx : x = d.c.ti
          · subst hx; simp; omega
          · simp [hx]
        · rw [if_neg hr, Option.map_eq_some_iff] at hh
          obtain ⟨⟨j, c'⟩, h1, h2⟩ := hh
          simp only [Prod.mk.injEq] at h2
          obtain ⟨rfl, rfl⟩ := h2
          obtain ⟨a1, a2, s', a3, a4, a5⟩ := ih hf (by simpa using h1)
          refine ⟨a1, a2, s', a3, a4, fun v => ⟨by simp only [more, if_true]; omega, ?_⟩⟩
          refine (a5 v).congr fun x => ?_
          simp only [more]
          by_cases hx : x = d.c.ti
          · subst hx; simp; omega
          · simp [hx]
      · rw [if_neg ht, Option.map_eq_some_iff] at hh
        obtain ⟨⟨j, c'⟩, h1, h2⟩ := hh
        simp only [Prod.mk.injEq] at h2
        obtain ⟨rfl, rfl⟩ := h2
        obtain ⟨a1, a2, s', a3, a4, a5⟩ := ih hf (by simp only [if_neg (fun h => ht (Eq.symm h) : ¬ t = d.c.ti)]; exact h1)
        refine ⟨a1, a2, s', a3, a4, fun v => ⟨by simp only [more, if_neg ht]; exact hs, ?_⟩⟩
        refine (a5 v).congr fun x => ?_
        simp only [more]
        by_cases hx : x = t
        · subst hx; simp only [if_true, if_neg (fun h => ht (Eq.symm h) : ¬ x = d.c.ti)]
        · simp [hx]

/-- Store values, one after the other. -/
def addAll (s : Struct A) : List (Nat × Val A) → Struct A
  | [] => s
  | (i, v) :: l => addAll (s.modify i (· ++ [v])) l

theorem decodeManyR_spec {table : List (RCoding A)} (hloc : ∀ c ∈ table, LooksOnlyAtIeR c) (hsm : table.length ≤ maxCodings) :
    ∀ (l : List (TagInst × List UInt8)) (es : List Ev) (before : List (TagInst × List UInt8)) (ss : Struct A), EvsOf es l →
    Filled table ss (fun t => (before.filter fun y => y.1 = t).length) →
    decodeManyR table es ss = (readIes table before l).bind fun r => (.ok (addAll ss r), []) := by
  intro l
  induction l with
  | nil =>
    intro es before ss he _
    cases es with
    | nil => simp [decodeManyR, readIes, addAll]
    | cons e es => cases he.1
  | cons x l ih =>
    intro es before ss he hf
    cases es with
    | nil => cases he.1
    | cons e es =>
      obtain ⟨he1, he2⟩ := he
      simp only [List.map_cons, List.cons.injEq] at he1
      obtain ⟨e1, e2⟩ := he1
      obtain ⟨ti, p, n⟩ := e
      have hn : n ≤ p.length := he2 (ti, p, n) (by simp)
      subst e1
      simp only [Ev.tlv] at *
      have hv : ∃ tail, p = p.take n ++ tail := ⟨p.drop n, (List.take_append_drop n p).symm⟩
      generalize hvv : p.take n = v at hv
      have hlen : v.length = n := by rw [← hvv]; simp; omega
      obtain ⟨tail, rfl⟩ := hv
      have hmore : ∀ (b : TagInst × List UInt8), b.1 = ti →
          (fun t => ((before ++ [b]).filter fun y => y.1 = t).length) = more ti fun t => (before.filter fun y => y.1 = t).length := by
        intro b hb
        funext t
        simp only [more, List.filter_append, List.length_append, List.filter_cons, List.filter_nil, hb]
        by_cases ht : t = ti
        · subst ht; simp
        · have : ¬ ti = t := fun h => ht h.symm
          simp [ht, this]
      have hfs := findSlot_filled ti table ss _ 0 0 hf (by omega)
      have ih' := fun ss h => ih es (before ++ [(ti, v)]) ss ⟨e2, fun e h => he2 e (by simp [h])⟩ h
      rw [hmore _ rfl] at ih'
      simp only [decodeManyR, readIes, decodeOneR]
      rw [hfs]
      cases hh : home ti table (before.filter fun y => y.1 = ti).length with
      | none =>
        simp only [Nat.zero_add]
        have := ih' ss (hf.none ti hh)
        by_cases hc : capacity ti (unreported table) = 0
        · simp [hc, this]
        · simp [hc, returnError]
      | some r =>
        obtain ⟨i, c⟩ := r
        obtain ⟨h1, h2, s, h3, h4, h5⟩ := hf.some ti hh
        simp only [Nat.zero_add, h1, h3]
        have hil : i < maxCodings := by
          have := (List.getElem?_eq_some_iff.1 h1).1
          omega
        have hlc := hloc c (List.mem_of_getElem? h1)
        unfold anyValueR
        cases hd : c.c.dec with
        | none => simp [returnError, h2]
        | some d =>
          simp only
          rw [← hlen, hlc.1 d hd v tail, hlc.2]
          have hset : ∀ w : Val A, ss.modify i (· ++ [w]) = ss.set i (s ++ [w]) := by
            intro w
            apply List.ext_getElem?
            intro j
            rw [List.getElem?_modify, List.getElem?_set]
            by_cases hj : i = j
            · subst hj
              obtain ⟨hlt, hget⟩ := List.getElem?_eq_some_iff.1 h3
              simp [hlt, hget]
            · simp [hj]
          cases hr : d v v.length with
          | ok w =>
            simp only [storeVal, if_pos h4, Rep.bind_assoc, Rep.bind_ok', if_neg (show ¬ i ≥ maxCodings by omega)]
            congr 1
            funext a
            rw [ih' _ (h5 a)]
            simp only [addAll, hset]
          | err e =>
            have : min 16 v.length ≤ v.length := by omega
            have h16 : v.take (min 16 v.length) = v.take 16 := by
              rw [List.take_eq_take_iff]
              omega
            simp [RCoding.complaint, h2, List.take_append_of_le_length this, h16]
          | _ => rfl

theorem addAll_get : ∀ (l : List (Nat × Val A)) (ss : Struct A) (i : Nat),
    (addAll ss l)[i]? = ss[i]?.map (· ++ (l.filter fun x => x.1 = i).map Prod.snd) := by
  intro l
  induction l with
  | nil => intro ss i; simp [addAll]
  | cons x l ih =>
    intro ss i
    obtain ⟨j, v⟩ := x
    rw [addAll, ih, List.getElem?_modify, List.filter_cons]
    by_cases h : j = i
    · subst h
      cases ss[j]? <;> simp
    · cases ss[i]? <;> simp [h]

theorem addAll_empty (table : List (RCoding A)) (l : List (Nat × Val A)) :
    addAll (emptyStruct (unreported table)) l = assemble table.length l := by
  apply List.ext_getElem?
  intro i
  rw [addAll_get]
  simp only [emptyStruct, assemble, unreported, List.getElem?_map]
  by_cases h : i < table.length
  · rw [List.getElem?_range h]
    simp [h]
  · rw [List.getElem?_eq_none (by omega), List.getElem?_eq_none (by simpa using h)]
    rfl

theorem filled_empty (table : List (RCoding A)) : Filled table (emptyStruct (unreported table)) fun _ => 0 := by
  induction table with
  | nil => trivial
  | cons c cs ih => exact ⟨by simp, ih.congr (by simp)⟩

theorem checkMandatoryR_spec (last : TagInst) : ∀ (cs : List (RCoding A)) (ss : Struct A) (idx : Nat),
    idx + cs.length ≤ maxCodings →
    checkMandatoryR last cs ss idx =
      match firstLack cs ss with
      | some r => (.err .EINVAL, [r])
      | none => (.ok (), []) := by
  intro cs
  induction cs with
  | nil => intro ss idx _; cases ss <;> rfl
  | cons c cs ih =>
    intro ss idx hl
    simp only [List.length_cons] at hl
    cases ss with
    | nil => rfl
    | cons s ss =>
      have ih' := ih ss (idx + 1) (by omega)
      simp only [checkMandatoryR, firstLack]
      cases hk : c.c.kind with
      | opt => simpa [least] using ih'
      | multi mx mn =>
        by_cases h : s.length < mn
        · simp [least, h, returnError]
        · simpa [least, h] using ih'
      | mand =>
        simp only [if_neg (show ¬ idx ≥ maxCodings by omega)]
        by_cases h : s.length = 0
        · simp [h, returnError, least]
        · rw [if_neg h, if_neg (show ¬ s.length < least .mand by simp only [least]; omega)]
          exact ih'

end Verif
