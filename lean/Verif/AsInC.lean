/- Lemmas: a struct in memory contains zero for mandatory members that were not set; printing it is defined (no property theorems
here). -/
import Verif.LayoutStrLemmas

namespace Verif
open Spec

variable {A : Type}

mutual
/-- Zero bytes are the value `zeroVal`. -/
theorem isVal_zero : ∀ (ty : MTy A) (f : Bytes A), TyFits ty → AllZero f (byteSize ty) → IsVal ty f (zeroVal ty)
  | .leaf l, f, _, hz => by simp only [zeroVal, IsVal]; exact .inr ⟨trivial, hz⟩
  | .nested S cfg o t, f, hf, hz => by
    simp only [TyFits] at hf
    simp only [zeroVal, IsVal]
    exact isStruct_zero t f S hf.2.2.1 hf.2.2.2 hz
theorem isStruct_zero : ∀ (t : MTab A) (f : Bytes A) (S : Nat), (∀ r ∈ tableRanges t, r.1 + r.2 ≤ S) → TabFits t → AllZero f S →
    IsStruct t f (zeroStruct t)
  | .nil, f, _, _, _, _ => by simp only [zeroStruct, IsStruct]
  | .cons p ty r, f, S, hin, hf, hz => by
    simp only [TabFits] at hf
    simp only [tableRanges, List.mem_append] at hin
    simp only [zeroStruct, IsStruct]
    have hr := isStruct_zero r f S (fun x hx => hin x (.inr hx)) hf.2.2 hz
    cases hk : p.kind with
    | mand =>
      have h1 := hin (p.ofs, byteSize ty) (.inl (by unfold ranges; rw [hk]; simp))
      simp only at h1
      refine ⟨by simp, by simp, by simp, fun i v hi hc => ?_, hr⟩
      match i with
      | 0 =>
        simp only [if_true, List.getElem?_cons_zero, Option.some.injEq] at hi
        subst hi
        refine isVal_zero ty _ hf.2.1 fun j hj => ?_
        simp only [from_, Nat.zero_mul, Nat.add_zero]
        exact hz _ (by omega)
      | i + 1 => simp at hi
    | opt =>
      have h1 := hin (p.flagOfs, 1) (.inl (flag_in hk))
      simp only at h1
      refine ⟨fun _ => ⟨⟨0, hz _ (by omega), by simp⟩, by simp⟩, by simp, by simp, by simp, hr⟩
    | multi max mand =>
      have h1 := hin (p.countOfs, 4) (.inl (count_in hk))
      simp only at h1
      refine ⟨by simp, by simp, fun _ _ _ => ⟨0, 0, 0, 0, hz _ (by omega), hz _ (by omega), hz _ (by omega), hz _ (by omega), rfl⟩,
        by simp, hr⟩
end

mutual
/-- What memory contains, it contains with zero for what was not set. -/
theorem isVal_asInC : ∀ (ty : MTy A) (f : Bytes A) (v : Val A), TyFits ty → IsVal ty f v → IsVal ty f (asInCVal ty v)
  | .leaf l, f, .leaf a, _, h => by simpa only [asInCVal] using h
  | .leaf l, f, .node a, _, h => by simpa only [asInCVal] using h
  | .nested S cfg o t, f, .leaf a, _, h => by simp only [IsVal] at h
  | .nested S cfg o t, f, .node ss, hf, h => by
    simp only [TyFits] at hf
    simp only [asInCVal, IsVal] at h ⊢
    exact isStruct_asInC t f ss hf.2.2.2 h
theorem isStruct_asInC : ∀ (t : MTab A) (f : Bytes A) (ss : Struct A), TabFits t → IsStruct t f ss → IsStruct t f (asInC t ss)
  | .nil, f, [], _, _ => by simp only [asInC, IsStruct]
  | .nil, f, s :: ss, _, h => by simp only [IsStruct] at h
  | .cons p ty r, f, [], _, h => by simp only [IsStruct] at h
  | .cons p ty r, f, s :: ss, hf, h => by
    simp only [TabFits] at hf
    simp only [IsStruct] at h
    simp only [asInC, IsStruct]
    obtain ⟨h1, h2, h3, h4, h5⟩ := h
    have hr := isStruct_asInC r f ss hf.2.2 h5
    by_cases hc : p.kind = .mand ∧ s = []
    · rw [if_pos hc]
      refine ⟨fun h => (by rw [hc.1] at h; cases h), fun _ => ⟨by simp, by simp⟩,
        fun max mand h => (by rw [hc.1] at h; cases h), fun i v hi _ => ?_, hr⟩
      match i with
      | 0 =>
        simp only [List.getElem?_cons_zero, Option.some.injEq] at hi
        subst hi
        rw [Nat.zero_mul, Nat.add_zero]
        exact isVal_zero ty _ hf.2.1 ((h2 hc.1).2 hc.2)
      | i + 1 => simp at hi
    · rw [if_neg hc]
      refine ⟨fun hk => ?_, fun hk => ?_, fun max mand hk => ?_, fun i v hi hcap => ?_, hr⟩
      · have := h1 hk
        simpa using this
      · have := h2 hk
        refine ⟨by simpa using this.1, fun hn => this.2 (by simpa using hn)⟩
      · have := h3 max mand hk
        simpa using this
      · rw [List.getElem?_map] at hi
        obtain ⟨w, hw, rfl⟩ := Option.map_eq_some_iff.1 hi
        exact isVal_asInC ty _ w hf.2.1 (h4 i w hw hcap)
end

mutual
/-- No mandatory member is without value, and values are of the types of their members. -/
def FullVal : MTy A → Val A → Prop
  | .leaf _, .leaf _ => True
  | .nested _ _ _ t, .node ss => Full t ss
  | _, _ => False
def Full : MTab A → Struct A → Prop
  | .nil, [] => True
  | .cons p ty r, s :: ss =>
    (p.kind = .mand → s.length = 1) ∧ (p.kind = .opt → s.length ≤ 1) ∧ (∀ i v, s[i]? = some v → i < p.kind.cap → FullVal ty v) ∧
      Full r ss
  | _, _ => False
end

mutual
theorem fullVal_zero : ∀ ty : MTy A, FullVal ty (zeroVal ty)
  | .leaf l => by simp only [zeroVal, FullVal]
  | .nested S cfg o t => by simp only [zeroVal, FullVal]; exact full_zero t
theorem full_zero : ∀ t : MTab A, Full t (zeroStruct t)
  | .nil => by simp only [zeroStruct, Full]
  | .cons p ty r => by
    simp only [zeroStruct, Full]
    refine ⟨fun hk => by rw [if_pos hk]; rfl, fun hk => by rw [if_neg (by rw [hk]; simp)]; simp, fun i v hi _ => ?_, full_zero r⟩
    split at hi
    · match i with
      | 0 =>
        simp only [List.getElem?_cons_zero, Option.some.injEq] at hi
        subst hi
        exact fullVal_zero ty
      | i + 1 => simp at hi
    · simp at hi
end

mutual
theorem fullVal_asInC : ∀ (ty : MTy A) (f : Bytes A) (v : Val A), IsVal ty f v → FullVal ty (asInCVal ty v)
  | .leaf l, f, .leaf a, h => by simp only [asInCVal, FullVal]
  | .leaf l, f, .node a, h => by simp only [IsVal] at h
  | .nested S cfg o t, f, .leaf a, h => by simp only [IsVal] at h
  | .nested S cfg o t, f, .node ss, h => by
    simp only [IsVal] at h
    simp only [asInCVal, FullVal]
    exact full_asInC t f ss h
theorem full_asInC : ∀ (t : MTab A) (f : Bytes A) (ss : Struct A), IsStruct t f ss → Full t (asInC t ss)
  | .nil, f, [], _ => by simp only [asInC, Full]
  | .nil, f, s :: ss, h => by simp only [IsStruct] at h
  | .cons p ty r, f, [], h => by simp only [IsStruct] at h
  | .cons p ty r, f, s :: ss, h => by
    simp only [IsStruct] at h
    simp only [asInC, Full]
    obtain ⟨h1, h2, h3, h4, h5⟩ := h
    by_cases hc : p.kind = .mand ∧ s = []
    · rw [if_pos hc]
      refine ⟨by simp, by simp, fun i v hi _ => ?_, full_asInC r f ss h5⟩
      match i with
      | 0 =>
        simp only [List.getElem?_cons_zero, Option.some.injEq] at hi
        subst hi
        exact fullVal_zero ty
      | i + 1 => simp at hi
    · rw [if_neg hc]
      refine ⟨fun hk => ?_, fun hk => ?_, fun i v hi hcap => ?_, full_asInC r f ss h5⟩
      · have := (h2 hk).1
        have hne : s ≠ [] := fun e => hc ⟨hk, e⟩
        have : 0 < s.length := List.length_pos_iff.2 hne
        rw [List.length_map]; omega
      · have := (h1 hk).2
        simpa using this
      · rw [List.getElem?_map] at hi
        obtain ⟨w, hw, rfl⟩ := Option.map_eq_some_iff.1 hi
        exact fullVal_asInC ty _ w (h4 i w hw hcap)
end

/-! ### Printing -/

/-- A part of a function that prints returns. -/
def TidyPart (f : StrBuf → Res StrBuf) : Prop := ∀ sb, ∃ sb', f sb = .ok sb' ∧ sb'.buf.isSome = sb.buf.isSome

theorem append_tidy {f : StrFn} (h : Tidy f) : TidyPart (StrBuf.append f) := by
  intro sb
  unfold StrBuf.append
  cases hb : sb.buf with
  | none =>
    obtain ⟨b', rc, e, -⟩ := h none
    simp only [e, Res.bind_ok']
    exact ⟨_, rfl, rfl⟩
  | some w =>
    obtain ⟨b', rc, e, hs⟩ := h (some (w.drop (sb.pos.getD 0)))
    simp only [e, Res.bind_ok']
    cases b' with
    | none => simp at hs
    | some v => exact ⟨_, rfl, rfl⟩

theorem snprintf_tidy (t : Text) : Tidy (snprintf t) := by
  intro buf
  cases buf with
  | none => exact ⟨_, _, rfl, rfl⟩
  | some w =>
    simp only [snprintf]
    by_cases h : w.length = 0
    · rw [if_pos h]; exact ⟨_, _, rfl, rfl⟩
    · rw [if_neg h]; exact ⟨_, _, rfl, rfl⟩

theorem printf_tidy (t : Text) : TidyPart (StrBuf.printf t) := append_tidy (snprintf_tidy t)

theorem when_tidy (c : Bool) {f : StrBuf → Res StrBuf} (h : TidyPart f) : TidyPart (StrBuf.when c f) := by
  intro sb
  unfold StrBuf.when
  split
  · exact h sb
  · exact ⟨_, rfl, rfl⟩

theorem strValues_tidy (c : StrCoding A) (s : List (Val A)) (hk : c.kind = .mand ∨ c.kind = .opt → s.length ≤ 1)
    (h : ∀ i v, s[i]? = some v → i < c.kind.cap → TidyPart (strValue c v)) :
    ∀ (vs : List (Val A)) (i : Nat) (sb : StrBuf), vs = s.drop i → ∃ sb' b, strValues c vs i sb = .ok (sb', b) ∧
      sb'.buf.isSome = sb.buf.isSome := by
  intro vs
  induction vs with
  | nil => intro i sb _; exact ⟨_, _, rfl, rfl⟩
  | cons v vs ih =>
    intro i sb hd
    have hvi : s[i]? = some v := by
      have := congrArg (·[0]?) hd
      simpa using this.symm
    have hil : i < s.length := by
      rcases Nat.lt_or_ge i s.length with h | h
      · exact h
      · rw [List.getElem?_eq_none h] at hvi; cases hvi
    have hd' : vs = s.drop (i + 1) := by
      have := congrArg List.tail hd
      simpa using this
    simp only [strValues]
    by_cases hex : c.kind.exceeds i = true
    · rw [if_pos hex]; exact ⟨_, _, rfl, rfl⟩
    · rw [if_neg hex]
      have hi : i < c.kind.cap := by
        cases hck : c.kind with
        | mand => have := hk (.inl hck); simp only [Kind.cap]; omega
        | opt => have := hk (.inr hck); simp only [Kind.cap]; omega
        | multi max mand =>
          rw [hck] at hex
          simp only [Kind.exceeds, decide_eq_true_eq] at hex
          simp only [Kind.cap]; omega
      obtain ⟨sb1, e1, s1⟩ := when_tidy (decide (i > 0)) (printf_tidy (lit ", ")) sb
      rw [e1]; simp only [Res.bind_ok']
      obtain ⟨sb2, e2, s2⟩ := h i v hvi hi sb1
      rw [e2]; simp only [Res.bind_ok']
      obtain ⟨sb3, b, e3, s3⟩ := ih (i + 1) sb2 hd'
      exact ⟨sb3, b, e3, s3.trans (s2.trans s1)⟩

mutual
theorem ty_tidy (names : ValueStrs) (p : Place) : ∀ (ty : PTy A) (v : Val A), ty.Tidies → FullVal ty.ty v →
    TidyPart (strValue (strSlotOf names p ty) v)
  | .leaf l str, .node v, _, hf => by simp only [PTy.ty, FullVal] at hf
  | .leaf l str, .leaf v, ht, _ => by
    simp only [PTy.Tidies] at ht
    intro sb
    cases str with
    | none => simp only [strValue, strSlotOf, Option.map_none]; exact printf_tidy _ sb
    | some f => simp only [strValue, strSlotOf, Option.map_some]; exact append_tidy (ht f rfl v) sb
  | .nested S cfg o t, .leaf v, _, hf => by simp only [PTy.ty, FullVal] at hf
  | .nested S cfg o t, .node ss, ht, hf => by
    simp only [PTy.Tidies] at ht
    simp only [PTy.ty, FullVal] at hf
    intro sb
    simp only [strValue, strSlotOf]
    obtain ⟨sb1, e1, s1⟩ := printf_tidy (lit "{") sb
    rw [e1]; simp only [Res.bind_ok']
    have htab : Tidy (gtlvsToStr names ss (some (strSlotsOf names t))) := by
      intro buf
      simp only [gtlvsToStr]
      exact tab_tidy names t ss ht hf _
    obtain ⟨sb2, e2, s2⟩ := append_tidy htab sb1
    rw [e2]; simp only [Res.bind_ok']
    obtain ⟨sb3, e3, s3⟩ := printf_tidy (lit " }") sb2
    exact ⟨sb3, e3, s3.trans (s2.trans s1)⟩
theorem tab_tidy (names : ValueStrs) : ∀ (t : PTab A) (ss : Struct A), t.Tidies → Full t.tab ss →
    ∀ sb : StrBuf, ∃ buf' rc, strTable names (strSlotsOf names t) ss sb = .ok (buf', rc) ∧ buf'.isSome = sb.buf.isSome
  | .nil, ss, _, hf => by
    intro sb
    simp only [strSlotsOf, strTable]
    exact ⟨_, _, rfl, rfl⟩
  | .cons p ty r, [], _, hf => by simp only [PTab.tab, Full] at hf
  | .cons p ty r, s :: ss, ht, hf => by
    simp only [PTab.Tidies] at ht
    simp only [PTab.tab, Full] at hf
    obtain ⟨h1, h2, h3, h4⟩ := hf
    intro sb
    simp only [strSlotsOf, strTable, strSlotOf_kind]
    have hmv : membVals p.kind s = some s := by
      cases hk : p.kind with
      | mand =>
        have := h1 hk
        match s, this with
        | [v], _ => rfl
      | opt =>
        have := h2 hk
        match s, this with
        | [], _ => rfl
        | [v], _ => rfl
      | multi _ _ => rfl
    rw [hmv]
    cases hs : s with
    | nil => exact tab_tidy names r ss ht.2 h4 sb
    | cons v vs =>
      simp only
      obtain ⟨sb1, e1, s1⟩ := printf_tidy (lit " '" ++ valueStr names (strSlotOf names p ty).tag ++ lit "'=") sb
      rw [e1]; simp only [Res.bind_ok']
      obtain ⟨sb2, e2, s2⟩ := when_tidy p.kind.isMulti (printf_tidy (lit "{ ")) sb1
      rw [e2]; simp only [Res.bind_ok']
      obtain ⟨sb3, b, e3, s3⟩ := strValues_tidy (strSlotOf names p ty) s
        (by rw [strSlotOf_kind]; intro h; rcases h with h | h
            · exact Nat.le_of_eq (h1 h)
            · exact h2 h)
        (by rw [strSlotOf_kind]; exact fun i v hi hc => ty_tidy names p ty v ht.1 (h3 i v hi hc)) (v :: vs) 0 sb2 (by rw [hs]; rfl)
      rw [e3]; simp only [Res.bind_ok']
      cases b with
      | true => exact ⟨_, _, rfl, s3.trans (s2.trans s1)⟩
      | false =>
        simp only [Bool.false_eq_true, if_false]
        obtain ⟨sb4, e4, s4⟩ := when_tidy p.kind.isMulti (printf_tidy (lit " }")) sb3
        rw [e4]; simp only [Res.bind_ok']
        obtain ⟨b', rc, e5, s5⟩ := tab_tidy names r ss ht.2 h4 sb4
        exact ⟨b', rc, e5, s5.trans (s4.trans (s3.trans (s2.trans s1)))⟩
end

end Verif
