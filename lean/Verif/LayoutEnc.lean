/- Lemmas: encoding from memory does what encoding from slots does (no property theorems here). -/
import Verif.LayoutOrd

namespace Verif
open Spec

variable {A : Type} [DecidableEq A]

/-- What encoding a value should compute. -/
def MTy.encV : MTy A → Val A → Msgb → Out Msgb
  | .leaf l => fun v b => match v with
    | .leaf a => l.enc a b
    | .node _ => .ub
  | .nested _ cfg _ t => fun v b => match v with
    | .node s => gtlvsEncode cfg s b (some (slotsOf t))
    | .leaf _ => .ub

omit [DecidableEq A] in
theorem slotOf_enc (p : Place) (ty : MTy A) : (slotOf p ty).enc = some ty.encV := by
  cases ty <;> simp only [slotOf, leafCoding, nestedCoding, MTy.encV] <;> congr

/-- Encoding a member of this type from memory does what it should. -/
def EncLaw (ty : MTy A) : Prop :=
  ∀ m a v b, a + byteSize ty ≤ m.size → m.size < 2 ^ 32 → IsVal ty (bytes m a) v →
    ty.encV v b = .ub ∨ ty.encM a m b = ty.encV v b

theorem load_ok {l : Leaf A} (hl : 0 < l.size) {m : Mem A} {a : Nat} {v : A} (h : a + l.size ≤ m.size)
    (hv : IsVal (.leaf l) (bytes m a) (.leaf v)) : l.load m a = .ok v := by
  unfold Leaf.load
  rw [if_pos h]
  simp only [IsVal] at hv
  rcases hv with hv | ⟨rfl, hv⟩
  · have h0 : m.at_ a = .part v 0 := by simpa [bytes] using hv 0 hl
    rw [h0]
    simp only
    rw [if_pos]
    refine List.all_eq_true.2 fun i hi => ?_
    simpa [bytes] using hv i (List.mem_range.1 hi)
  · have h0 : m.at_ a = .raw 0 := by simpa [bytes] using hv 0 hl
    rw [h0]
    simp only
    rw [if_pos]
    refine List.all_eq_true.2 fun i hi => ?_
    simpa [bytes] using hv i (List.mem_range.1 hi)

theorem leaf_encLaw (l : Leaf A) (hl : 0 < l.size) : EncLaw (.leaf l) := by
  intro m a v b h1 h2 hv
  right
  cases v with
  | node => simp only [IsVal] at hv
  | leaf v =>
    simp only [byteSize] at h1
    simp only [MTy.encM, MTy.encV, Leaf.encM]
    rw [membof_ok (by omega)]
    simp only [Res.out, Nat.zero_add]
    rw [load_ok hl h1 hv]

/-- One entry of a struct that is to be encoded. -/
theorem encodeElemsM_ok (cfg : Cfg) {L : List (Place × MTy A)} {S obj : Nat} {m : Mem A} (hf : ListFits L S)
    (hroom : obj + S ≤ m.size) (hsmall : m.size < 2 ^ 32) {x} (hx : x ∈ L) (law : EncLaw x.2) {s : List (Val A)}
    (hs : ∀ i v, s[i]? = some v → i < x.1.kind.cap → IsVal x.2 (from_ (bytes m obj) (x.1.ofs + i * x.1.pitch)) v)
    (hcap : s.length ≤ x.1.kind.cap ∨ ∃ max mand, x.1.kind = .multi max mand) :
    ∀ (vs : List (Val A)) (i : Nat) (p : Put) (b : Msgb), vs = s.drop i →
    encodeVals cfg (slo x) vs i p b = .ub ∨
    encodeElemsM cfg (ent x) obj m vs.length i p b = encodeVals cfg (slo x) vs i p b := by
  intro vs
  induction vs with
  | nil => intro i p b _; right; rfl
  | cons v vs ih =>
    intro i p b hd
    have hvi : s[i]? = some v := by
      have := congrArg (·[0]?) hd
      simpa using this.symm
    have hil : i < s.length := by
      rcases Nat.lt_or_ge i s.length with h | h
      · exact h
      · rw [List.getElem?_eq_none h] at hvi; cases hvi
    have hd' : vs = s.drop (i + 1) := by
      have := congrArg List.tail hd
      simpa using this
    simp only [List.length_cons, encodeElemsM, encodeVals, ent, slo, entry_ti, slotOf_ti, entry_kind, slotOf_kind, entry_enc,
      slotOf_enc]
    generalize ignoreErr (putTli cfg p b x.1.ti 0) p b = pb
    obtain ⟨p1, b1⟩ := pb
    simp only
    by_cases hex : x.1.kind.exceeds i = true
    · right; rw [if_pos hex, if_pos hex]
    · rw [if_neg hex, if_neg hex]
      have hi : i < x.1.kind.cap := by
        rcases hcap with h | ⟨max, mand, h⟩
        · omega
        · rw [h] at hex ⊢
          simp only [Kind.exceeds, decide_eq_true_eq] at hex
          simp only [Kind.cap]; omega
      have hei := elem_inside hf hx hi
      rw [elem_eq hf hx (by omega) hi]
      have hv := hs i v hvi hi
      rw [from_bytes] at hv
      rcases law m _ v b1 (by omega) hsmall hv with hu | he
      · left; rw [hu]
      · rw [he]
        cases hr : x.2.encV v b1 with
        | ok b2 =>
          simp only
          exact ih (i + 1) _ _ hd'
        | err e b2 => right; rfl
        | abort => right; rfl
        | ub => left; rfl
        | diverge => right; rfl

theorem encodeTableM_ok (cfg : Cfg) {L : List (Place × MTy A)} {S obj : Nat} {m : Mem A} (hf : ListFits L S)
    (hroom : obj + S ≤ m.size) (hsmall : m.size < 2 ^ 32) (law : ∀ x ∈ L, EncLaw x.2)
    {L2 : List (Place × MTy A)} {s2} (h2 : All2 (fun x s => EntOk x (bytes m obj) s) L2 s2) :
    ∀ (p : Put) (b : Msgb), (∀ x ∈ L2, x ∈ L) →
    encodeTable cfg (L2.map slo) s2 p b = .ub ∨
    encodeTableM cfg obj m (L2.map ent) p b = encodeTable cfg (L2.map slo) s2 p b := by
  induction h2 with
  | nil => intro p b _; right; rfl
  | @cons x s L2 s2 hx h2 ih =>
    intro p b hm
    have hxL := hm x List.mem_cons_self
    have hin := hf.inside x hxL
    have hpos := tyFits_pos (hf.fits x hxL).2
    have hnp : (ent x).noPitch = false := by
      unfold MCoding.noPitch
      simp only [ent, entry_kind, entry_pitch]
      cases hk : x.1.kind with
      | mand => rfl
      | opt => rfl
      | multi max mand =>
        have := ((hf.fits x hxL).1 _ _ hk).2
        simp only [beq_eq_false_iff_ne]; omega
    -- the number of elements
    have hfill : ∀ vs, membVals x.1.kind s = some vs → vs = s ∧ (vs.length ≤ x.1.kind.cap ∨ ∃ max mand, x.1.kind = .multi max mand) ∧
        ∃ n, (ent x).filled m obj = .ok n ∧ n.getD 1 = vs.length := by
      intro vs hvs
      unfold MCoding.filled
      simp only [ent, entry_kind, entry_flagOfs, entry_countOfs]
      cases hk : x.1.kind with
      | mand =>
        rw [hk] at hvs
        have hl := (hx.2.1 hk).1
        match s, hl with
        | [], _ => cases hvs
        | [v], _ => cases hvs; exact ⟨rfl, .inl (by simp [Kind.cap]), none, rfl, rfl⟩
      | opt =>
        rw [hk] at hvs
        have hl := (hx.1 hk).2
        have h1 := hin _ (flag_in hk)
        simp only at h1
        have h2 := (hx.1 hk).1
        rw [from_bytes] at h2
        simp only
        rw [membof_ok (by omega)]
        simp only [Res.bind_ok']
        rw [flag_ok (by omega) h2]
        match s, hl with
        | [], _ => cases hvs; exact ⟨rfl, .inl (by simp), _, rfl, rfl⟩
        | [v], _ => cases hvs; exact ⟨rfl, .inl (by simp [Kind.cap]), _, rfl, rfl⟩
      | multi max mand =>
        rw [hk] at hvs
        cases hvs
        have h1 := hin _ (count_in hk)
        simp only at h1
        have h2 := hx.2.2.1 _ _ hk
        rw [from_bytes] at h2
        simp only
        rw [membof_ok (by omega)]
        simp only [Res.bind_ok']
        rw [count_ok (by omega) h2]
        exact ⟨trivial, .inr ⟨max, mand, rfl⟩, _, rfl, rfl⟩
    simp only [List.map_cons, encodeTableM, encodeTable]
    rw [show (slo x).kind = x.1.kind from slotOf_kind _ _]
    cases hmv : membVals x.1.kind s with
    | none => left; rfl
    | some vs =>
      obtain ⟨rfl, hcap, n, hn, hnl⟩ := hfill vs hmv
      rw [hn]
      simp only [Res.out, hnp, Bool.false_eq_true, if_false]
      rw [hnl]
      rcases encodeElemsM_ok cfg hf hroom hsmall hxL (law x hxL) hx.2.2.2 hcap vs 0 p b rfl with hu | he
      · left; rw [hu]
      · rw [he]
        cases hr : encodeVals cfg (slo x) vs 0 p b with
        | ok pb =>
          obtain ⟨p', b'⟩ := pb
          exact ih p' b' fun y hy => hm y (List.mem_cons_of_mem _ hy)
        | err e pb => right; rfl
        | abort => right; rfl
        | ub => left; rfl
        | diverge => right; rfl

theorem gtlvsEncodeM_ok (cfg : Cfg) {t : MTab A} {S obj : Nat} {m : Mem A} (hf : ListFits t.list S) (hS : 0 < S)
    (hroom : obj + S ≤ m.size) (hsmall : m.size < 2 ^ 32) (law : ∀ x ∈ t.list, EncLaw x.2) {ss : Struct A}
    (h : IsStruct t (bytes m obj) ss) (b : Msgb) :
    gtlvsEncode cfg ss b (some (slotsOf t)) = .ub ∨
    gtlvsEncodeM cfg obj m b (some t.entries) = gtlvsEncode cfg ss b (some (slotsOf t)) := by
  unfold gtlvsEncodeM gtlvsEncode
  rw [membof_ok (by omega)]
  simp only [Res.out]
  rw [entries_list, slotsOf_list]
  rcases encodeTableM_ok cfg hf hroom hsmall law ((isStruct_list _ _ _).1 h) {} b (fun _ hx => hx) with hu | he
  · left; rw [hu]; rfl
  · right; rw [he]

mutual
theorem ty_encLaw : ∀ ty : MTy A, TyFits ty → EncLaw ty
  | .leaf l, h => leaf_encLaw l (by simpa only [TyFits] using h)
  | .nested S cfg o t, hf => by
    simp only [TyFits] at hf
    intro m a v b h1 h2 hv
    cases v with
    | leaf => simp only [IsVal] at hv
    | node ss =>
      simp only [MTy.encM, MTy.encV, byteSize, IsVal] at *
      rw [Nat.mod_eq_of_lt (by omega)]
      have hF : Fits t S := ⟨hf.1, hf.2.1, hf.2.2.1, hf.2.2.2⟩
      exact gtlvsEncodeM_ok cfg hF.list hf.1 h1 h2 (tab_encLaw t hf.2.2.2) hv b
theorem tab_encLaw : ∀ t : MTab A, TabFits t → ∀ x ∈ t.list, EncLaw x.2
  | .nil, _, x, hx => by simp [MTab.list] at hx
  | .cons p ty r, hf, x, hx => by
    simp only [TabFits] at hf
    rcases List.mem_cons.1 hx with rfl | hx'
    · exact ty_encLaw ty hf.2.1
    · exact tab_encLaw r hf.2.2 x hx'
end

end Verif
