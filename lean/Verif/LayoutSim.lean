/- Lemmas: decoding to memory does what decoding to slots does (no property theorems here). -/
import Verif.LayoutLemmas

namespace Verif
open Spec

variable {A : Type}

/-! ### Entries -/

section
variable [DecidableEq A]

theorem entry_ti (p : Place) (ty : MTy A) : (ty.entry p).ti = p.ti := by cases ty <;> simp only [MTy.entry]
theorem entry_kind (p : Place) (ty : MTy A) : (ty.entry p).kind = p.kind := by cases ty <;> simp only [MTy.entry]
theorem entry_ofs (p : Place) (ty : MTy A) : (ty.entry p).ofs = p.ofs := by cases ty <;> simp only [MTy.entry]
theorem entry_pitch (p : Place) (ty : MTy A) : (ty.entry p).pitch = p.pitch := by cases ty <;> simp only [MTy.entry]
theorem entry_flagOfs (p : Place) (ty : MTy A) : (ty.entry p).flagOfs = p.flagOfs := by cases ty <;> simp only [MTy.entry]
theorem entry_countOfs (p : Place) (ty : MTy A) : (ty.entry p).countOfs = p.countOfs := by cases ty <;> simp only [MTy.entry]

/-- What an entry does at the address of its member. -/
def MTy.decM : MTy A → Nat → List UInt8 → Nat → Mem A → Out (Mem A)
  | .leaf l => l.decM
  | .nested _ cfg ordered t => fun a v n m =>
    gtlvsDecodeM (a % 2 ^ 32) { cfg := cfg, mem := v, srcLen := n } ordered m (some t.entries)

def MTy.encM : MTy A → Nat → Mem A → Msgb → Out Msgb
  | .leaf l => l.encM
  | .nested _ cfg _ t => fun a m b => gtlvsEncodeM cfg (a % 2 ^ 32) m b (some t.entries)

theorem entry_dec (p : Place) (ty : MTy A) : (ty.entry p).dec = some ty.decM := by cases ty <;> simp only [MTy.entry, MTy.decM]
theorem entry_enc (p : Place) (ty : MTy A) : (ty.entry p).enc = some ty.encM := by cases ty <;> simp only [MTy.entry, MTy.encM]
end

/-- What it should compute. -/
def MTy.decV : MTy A → List UInt8 → Nat → Res (Val A)
  | .leaf l => fun p n => (l.dec p n).bind fun a => .ok (.leaf a)
  | .nested _ cfg ordered t => fun p n =>
    (gtlvsDecode { cfg := cfg, mem := p, srcLen := n } ordered (some (slotsOf t))).bind fun s => .ok (.node s)

theorem slotOf_dec (p : Place) (ty : MTy A) : (slotOf p ty).dec = some ty.decV := by
  cases ty <;> simp only [slotOf, leafCoding, nestedCoding, MTy.decV]
theorem slotOf_ti (p : Place) (ty : MTy A) : (slotOf p ty).ti = p.ti := by
  cases ty <;> simp only [slotOf, leafCoding, nestedCoding]
theorem slotOf_kind (p : Place) (ty : MTy A) : (slotOf p ty).kind = p.kind := by
  cases ty <;> simp only [slotOf, leafCoding, nestedCoding]

theorem tyFits_pos {ty : MTy A} (h : TyFits ty) : 0 < byteSize ty := by
  cases ty with
  | leaf l => simpa only [TyFits, byteSize] using h
  | nested => simp only [TyFits, byteSize] at *; exact h.1

/-- Decoding a member of this type to memory does what it should. -/
def TyLaw [DecidableEq A] (ty : MTy A) : Prop :=
  ∀ m a p n, a + byteSize ty ≤ m.size → m.size < 2 ^ 32 → AllZero (bytes m a) (byteSize ty) →
    Agrees (a, byteSize ty) m (fun m' v => IsVal ty (bytes m' a) v) (ty.decM a p n m) (ty.decV p n)

/-! ### One entry of a struct in memory -/

/-- A struct of size `S` is at `obj`, and contains these values. -/
structure Here (L : List (Place × MTy A)) (S obj : Nat) (m : Mem A) (ss : Struct A) : Prop where
  room : obj + S ≤ m.size
  small : m.size < 2 ^ 32
  fits : ListFits L S
  inv : Laid L (bytes m obj) ss

theorem ListFits.self {L : List (Place × MTy A)} {S} (h : ListFits L S) {x} (hx : x ∈ L) :
    (ranges x.1 (byteSize x.2)).Pairwise Apart := (List.pairwise_flatMap.1 h.apart).1 x hx

variable [DecidableEq A]

theorem filled_ok {L : List (Place × MTy A)} {S obj : Nat} {m : Mem A} {ss} (h : Here L S obj m ss) {x} (hx : x ∈ L)
    {s} (hs : EntOk x (bytes m obj) s) :
    (x.2.entry x.1).filled m obj = .ok (match x.1.kind with
      | .mand => none
      | .opt => some s.length
      | .multi _ _ => some s.length) := by
  have hin := h.fits.inside x hx
  have hr := h.room
  unfold MCoding.filled
  rw [entry_kind, entry_flagOfs, entry_countOfs]
  cases hk : x.1.kind with
  | mand => rfl
  | opt =>
    have h1 := hin _ (flag_in hk)
    simp only at h1
    simp only
    rw [membof_ok (by omega)]
    have h2 := (hs.1 hk).1
    rw [from_bytes] at h2
    simp only [Res.bind_ok']
    rw [flag_ok (by omega) h2]
    have h3 := (hs.1 hk).2
    match s, h3 with
    | [], _ => rfl
    | [_], _ => rfl
  | multi max mand =>
    have h1 := hin _ (count_in hk)
    simp only at h1
    simp only
    rw [membof_ok (by omega)]
    have h2 := hs.2.2.1 _ _ hk
    rw [from_bytes] at h2
    simp only [Res.bind_ok']
    rw [count_ok (by omega) h2]
    rfl

theorem next_ok {L : List (Place × MTy A)} {S obj : Nat} {m : Mem A} {ss} (h : Here L S obj m ss) {x} (hx : x ∈ L)
    {s} (hs : EntOk x (bytes m obj) s) :
    (x.2.entry x.1).next m obj = .ok (match x.1.kind with | .multi _ _ => s.length | _ => 0) := by
  have hin := h.fits.inside x hx
  have hr := h.room
  unfold MCoding.next
  rw [entry_kind, entry_countOfs]
  cases hk : x.1.kind with
  | mand => rfl
  | opt => rfl
  | multi max mand =>
    have h1 := hin _ (count_in hk)
    simp only at h1
    simp only
    rw [membof_ok (by omega)]
    have h2 := hs.2.2.1 _ _ hk
    rw [from_bytes] at h2
    simp only [Res.bind_ok']
    rw [count_ok (by omega) h2]

omit [DecidableEq A] in
/-- An element of a member is inside of the struct. -/
theorem elem_inside {L : List (Place × MTy A)} {S : Nat} (h : ListFits L S) {x} (hx : x ∈ L) {i} (hi : i < x.1.kind.cap) :
    x.1.ofs + i * x.1.pitch + byteSize x.2 ≤ S := by
  have hf := h.fits x hx
  have hpos := tyFits_pos hf.2
  obtain ⟨r, hr, h1⟩ := elem_in hf hi (j := byteSize x.2 - 1) (by omega)
  have := h.inside x hx r hr
  unfold InRange at h1
  omega

omit [DecidableEq A] in
/-- Its number is small. -/
theorem cap_small {L : List (Place × MTy A)} {S : Nat} (h : ListFits L S) {x} (hx : x ∈ L) (hS : S < 2 ^ 32)
    {i} (hi : i < x.1.kind.cap) : i + 1 < 2 ^ 32 := by
  cases hk : x.1.kind with
  | mand => rw [hk] at hi; simp only [Kind.cap] at hi; omega
  | opt => rw [hk] at hi; simp only [Kind.cap] at hi; omega
  | multi max mand =>
    have hf := h.fits x hx
    have hpos := tyFits_pos hf.2
    have hp := (hf.1 _ _ hk).2
    have h1 := elem_inside h hx hi
    have : i ≤ i * x.1.pitch := Nat.le_mul_of_pos_right _ (by omega)
    omega

/-- The address of the next element. -/
theorem elem_eq {L : List (Place × MTy A)} {S : Nat} (h : ListFits L S) {x} (hx : x ∈ L) (hS : S < 2 ^ 32)
    {i} (hi : i < x.1.kind.cap) : (x.2.entry x.1).elem i = x.1.ofs + i * x.1.pitch := by
  unfold MCoding.elem
  rw [entry_ofs, entry_pitch]
  have h1 := elem_inside h hx hi
  exact Nat.mod_eq_of_lt (by omega)

omit [DecidableEq A] in
/-- Different elements do not overlap. -/
theorem elems_apart {x : Place × MTy A} (hf : EntFits x) {i j : Nat} (hi : i < x.1.kind.cap) (hj : j < x.1.kind.cap)
    (hij : i ≠ j) {k : Nat} (hk : k < byteSize x.2) :
    x.1.ofs + i * x.1.pitch + k < x.1.ofs + j * x.1.pitch ∨ x.1.ofs + j * x.1.pitch + byteSize x.2 ≤ x.1.ofs + i * x.1.pitch + k := by
  cases hk' : x.1.kind with
  | mand => rw [hk'] at hi hj; simp only [Kind.cap] at hi hj; omega
  | opt => rw [hk'] at hi hj; simp only [Kind.cap] at hi hj; omega
  | multi max mand =>
    have hp := (hf.1 _ _ hk').2
    rcases Nat.lt_or_gt_of_ne hij with h | h
    · have h1 : (i + 1) * x.1.pitch ≤ j * x.1.pitch := Nat.mul_le_mul_right _ h
      rw [Nat.add_mul, Nat.one_mul] at h1
      left; omega
    · have h1 : (j + 1) * x.1.pitch ≤ i * x.1.pitch := Nat.mul_le_mul_right _ h
      rw [Nat.add_mul, Nat.one_mul] at h1
      right; omega

omit [DecidableEq A] in
/-- The flag or count of an entry is apart from its elements. -/
theorem mark_apart {L : List (Place × MTy A)} {S : Nat} (h : ListFits L S) {x} (hx : x ∈ L) {i k : Nat}
    (hi : i < x.1.kind.cap) (hk : k < byteSize x.2) :
    (x.1.kind = .opt → ¬ InRange (x.1.ofs + i * x.1.pitch + k) (x.1.flagOfs, 1)) ∧
    (∀ max mand, x.1.kind = .multi max mand → ¬ InRange (x.1.ofs + i * x.1.pitch + k) (x.1.countOfs, 4)) := by
  have hp := h.self hx
  obtain ⟨r, hr, hin⟩ := elem_in (h.fits x hx) hi hk
  unfold ranges at hp hr
  constructor
  · intro hk'
    rw [hk'] at hp hr hi
    simp only [Kind.cap] at hi
    have h1 := (List.pairwise_cons.1 hp).1 _ (List.mem_singleton.2 rfl)
    unfold Apart at h1
    simp only at h1
    obtain rfl : i = 0 := by omega
    unfold InRange
    simp only
    omega
  · intro max mand hk'
    have hf := ((h.fits x hx).1 _ _ hk').2
    rw [hk'] at hp hr hi
    simp only [Kind.cap] at hi
    have h1 := (List.pairwise_cons.1 hp).1 _ (List.mem_singleton.2 rfl)
    unfold Apart at h1
    simp only at h1
    have h2 : (i + 1) * x.1.pitch ≤ max * x.1.pitch := Nat.mul_le_mul_right _ hi
    rw [Nat.add_mul, Nat.one_mul] at h2
    unfold InRange
    simp only
    omega

omit [DecidableEq A] in
/-- One more element has been written, and the flag or count. -/
theorem inv_mark {L1 L2 : List (Place × MTy A)} {x} {S obj : Nat} {m m1 m2 : Mem A} {s1 s s2} {v : Val A}
    (h : Here (L1 ++ x :: L2) S obj m (s1 ++ s :: s2)) (hl : L1.length = s1.length) (hc : s.length < x.1.kind.cap)
    (ho : OnlyIn (obj + (x.1.ofs + s.length * x.1.pitch), byteSize x.2) m m1)
    (hv : IsVal x.2 (bytes m1 (obj + (x.1.ofs + s.length * x.1.pitch))) v)
    (Mk : Nat → Prop) (h2 : m2.size = m.size) (ha : ∀ j, ¬ Mk j → bytes m2 obj j = bytes m1 obj j)
    (hb : ∀ j, Mk j → ∃ r ∈ ranges x.1 (byteSize x.2), InRange j r)
    (hn : ∀ i k, i < x.1.kind.cap → k < byteSize x.2 → ¬ Mk (x.1.ofs + i * x.1.pitch + k))
    (hf : x.1.kind = .opt → IsFlag (from_ (bytes m2 obj) x.1.flagOfs) true)
    (hcnt : ∀ max mand, x.1.kind = .multi max mand → IsCount (from_ (bytes m2 obj) x.1.countOfs) (s.length + 1)) :
    Here (L1 ++ x :: L2) S obj m2 (s1 ++ (s ++ [v]) :: s2) := by
  have hx : x ∈ L1 ++ x :: L2 := by simp
  have hfit := h.fits.fits x hx
  have hold : EntOk x (bytes m obj) s ∧ EntFree x (bytes m obj) s := by
    refine All2.get h.inv (i := L1.length) (by simp) ?_
    rw [hl]; simp
  -- other elements
  have hother : ∀ i k, i < x.1.kind.cap → i ≠ s.length → k < byteSize x.2 →
      from_ (bytes m obj) (x.1.ofs + i * x.1.pitch) k = from_ (bytes m2 obj) (x.1.ofs + i * x.1.pitch) k := by
    intro i k hi hne hk
    simp only [from_]
    rw [ha _ (hn i k hi hk)]
    simp only [bytes]
    refine (ho.2 _ ?_).symm
    have := elems_apart hfit hi hc hne hk
    simp only
    omega
  refine ⟨by rw [h2]; exact h.room, by rw [h2]; exact h.small, h.fits, Laid.update h.fits hl h.inv ?_ ⟨⟨?_, ?_, ?_, ?_⟩, ?_⟩⟩
  · intro j hj
    have hm : ¬ Mk j := fun hm => by
      obtain ⟨r, hr, hi⟩ := hb j hm
      exact hj r hr hi
    rw [ha j hm]
    simp only [bytes]
    refine (ho.2 _ ?_).symm
    simp only
    rcases Nat.lt_or_ge j (x.1.ofs + s.length * x.1.pitch) with h1 | h1
    · left; omega
    · right
      rcases Nat.lt_or_ge j (x.1.ofs + s.length * x.1.pitch + byteSize x.2) with h2 | h2
      · obtain ⟨r, hr, hi⟩ := elem_in hfit hc (j := j - (x.1.ofs + s.length * x.1.pitch)) (by omega)
        rw [Nat.add_sub_cancel' h1] at hi
        exact absurd hi (hj r hr)
      · omega
  · intro hk
    have hc' := hc
    rw [hk] at hc'
    simp only [Kind.cap] at hc'
    obtain rfl : s = [] := List.eq_nil_of_length_eq_zero (by omega)
    exact ⟨by simpa using hf hk, by simp⟩
  · intro hk
    have hc' := hc
    rw [hk] at hc'
    simp only [Kind.cap] at hc'
    obtain rfl : s = [] := List.eq_nil_of_length_eq_zero (by omega)
    exact ⟨by simp, by simp⟩
  · intro max mand hk
    have := hcnt max mand hk
    simpa using this
  · intro i w hw hi
    rcases Nat.lt_or_ge i s.length with h1 | h1
    · rw [List.getElem?_append_left h1] at hw
      exact isVal_congr x.2 _ _ w hfit.2 (fun k hk => hother i k hi (by omega) hk) (hold.1.2.2.2 i w hw hi)
    · rw [List.getElem?_append_right h1] at hw
      have h0 : i - s.length = 0 := by
        rcases Nat.eq_zero_or_pos (i - s.length) with h0 | h0
        · exact h0
        · rw [List.getElem?_eq_none (by simp; omega)] at hw; cases hw
      obtain rfl : i = s.length := by omega
      simp only [Nat.sub_self, List.getElem?_cons_zero, Option.some.injEq] at hw
      subst hw
      refine isVal_congr x.2 _ _ v hfit.2 (fun k hk => ?_) hv
      rw [from_bytes]
      have := ha _ (hn s.length k hi hk)
      simp only [bytes] at this ⊢
      have e : obj + (x.1.ofs + s.length * x.1.pitch + k) = obj + (x.1.ofs + s.length * x.1.pitch) + k := by omega
      rw [e] at this
      exact this.symm
  · intro i hi1 hi2
    simp only [List.length_append, List.length_singleton] at hi1
    exact allZero_congr (fun k hk => hother i k hi2 (by omega) hk) (hold.2 i (by omega) hi2)

theorem mark_ok {L1 L2 : List (Place × MTy A)} {x} {S obj : Nat} {m m1 : Mem A} {s1 s s2} {v : Val A}
    (h : Here (L1 ++ x :: L2) S obj m (s1 ++ s :: s2)) (hl : L1.length = s1.length) (hc : s.length < x.1.kind.cap)
    (ho : OnlyIn (obj + (x.1.ofs + s.length * x.1.pitch), byteSize x.2) m m1)
    (hv : IsVal x.2 (bytes m1 (obj + (x.1.ofs + s.length * x.1.pitch))) v) :
    ∃ m2, (x.2.entry x.1).mark m1 obj = .ok m2 ∧ OnlyIn (obj, S) m m2 ∧
      Here (L1 ++ x :: L2) S obj m2 (s1 ++ (s ++ [v]) :: s2) := by
  have hx : x ∈ L1 ++ x :: L2 := by simp
  have hfit := h.fits.fits x hx
  have hin := h.fits.inside x hx
  have hroom := h.room
  have hsmall := h.small
  have hold : EntOk x (bytes m obj) s := by
    refine (All2.get h.inv (i := L1.length) (by simp) ?_).1
    rw [hl]; simp
  have hei := elem_inside h.fits hx hc
  have ho' : OnlyIn (obj, S) m m1 := OnlyIn.mono ho (by simp only; omega) (by simp only; omega)
  unfold MCoding.mark
  rw [entry_kind, entry_flagOfs, entry_countOfs]
  cases hk : x.1.kind with
  | mand =>
    refine ⟨m1, rfl, ho', inv_mark h hl hc ho hv (fun _ => False) ho.1 (fun _ _ => rfl) (fun _ => False.elim) (by simp) ?_ ?_⟩
    · intro h'; rw [hk] at h'; cases h'
    · intro _ _ h'; rw [hk] at h'; cases h'
  | opt =>
    have h1 := hin _ (flag_in hk)
    simp only at h1
    obtain ⟨m2, e, h2, h3⟩ := setFlag_ok (m := m1) (a := obj + x.1.flagOfs) true (by rw [ho.1]; omega)
    refine ⟨m2, e, OnlyIn.trans ho' (OnlyIn.mono h2 (by simp only; omega) (by simp only; omega)),
      inv_mark h hl hc ho hv (fun j => InRange j (x.1.flagOfs, 1)) (h2.1.trans ho.1) ?_ ?_ ?_ ?_ ?_⟩
    · intro j hj
      simp only [bytes]
      refine h2.2 _ ?_
      simp only [InRange] at hj ⊢
      omega
    · exact fun j hj => ⟨_, flag_in hk, hj⟩
    · exact fun i k hi hk' => (mark_apart h.fits hx hi hk').1 hk
    · intro _; rw [from_bytes]; exact h3
    · intro _ _ h'; rw [hk] at h'; cases h'
  | multi max mand =>
    have h1 := hin _ (count_in hk)
    simp only at h1
    have hcap := cap_small h.fits hx (by omega) hc
    have hc1 : m1.count (obj + x.1.countOfs) = .ok s.length := by
      refine count_ok (by rw [ho.1]; omega) ?_
      have := hold.2.2.1 _ _ hk
      rw [from_bytes] at this
      refine isCount_congr (fun k hk4 => ?_) this
      simp only [bytes]
      refine (ho.2 _ ?_).symm
      simp only
      rcases Nat.lt_or_ge (x.1.countOfs + k) (x.1.ofs + s.length * x.1.pitch) with h5 | h5
      · left; omega
      · right
        rcases Nat.lt_or_ge (x.1.countOfs + k) (x.1.ofs + s.length * x.1.pitch + byteSize x.2) with h6 | h6
        · have := (mark_apart h.fits hx (i := s.length) (k := x.1.countOfs + k - (x.1.ofs + s.length * x.1.pitch)) hc (by omega)).2
            _ _ hk
          rw [Nat.add_sub_cancel' h5] at this
          exact absurd ⟨by simp only; omega, by simp only; omega⟩ this
        · omega
    simp only
    rw [hc1]
    simp only [Res.bind_ok']
    rw [Nat.mod_eq_of_lt hcap]
    obtain ⟨m2, e, h2, h3⟩ := setCount_ok (m := m1) (a := obj + x.1.countOfs) (n := s.length + 1) (by rw [ho.1]; omega) hcap
    refine ⟨m2, e, OnlyIn.trans ho' (OnlyIn.mono h2 (by simp only; omega) (by simp only; omega)),
      inv_mark h hl hc ho hv (fun j => InRange j (x.1.countOfs, 4)) (h2.1.trans ho.1) ?_ ?_ ?_ ?_ ?_⟩
    · intro j hj
      simp only [bytes]
      refine h2.2 _ ?_
      simp only [InRange] at hj ⊢
      omega
    · exact fun j hj => ⟨_, count_in hk, hj⟩
    · exact fun i k hi hk' => (mark_apart h.fits hx hi hk').2 _ _ hk
    · intro h'; rw [hk] at h'; cases h'
    · intro _ _ _; rw [from_bytes]; exact h3

end Verif
