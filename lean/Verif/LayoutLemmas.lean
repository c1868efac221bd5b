/- Lemmas: memory of decoded structs (no property theorems here). -/
import Verif.SpecLayout
import Verif.BasicLemmas

namespace Verif
open Spec

variable {A : Type}

/-! ### Tables as lists -/

theorem entries_list [DecidableEq A] : ∀ t : MTab A, t.entries = t.list.map fun x => x.2.entry x.1
  | .nil => by simp [MTab.entries, MTab.list]
  | .cons p ty r => by simp [MTab.entries, MTab.list, entries_list r]

theorem slotsOf_list : ∀ t : MTab A, slotsOf t = t.list.map fun x => slotOf x.1 x.2
  | .nil => by simp [slotsOf, MTab.list]
  | .cons p ty r => by simp [slotsOf, MTab.list, slotsOf_list r]

theorem tableRanges_list : ∀ t : MTab A, tableRanges t = t.list.flatMap fun x => ranges x.1 (byteSize x.2)
  | .nil => by simp [tableRanges, MTab.list]
  | .cons p ty r => by simp [tableRanges, MTab.list, tableRanges_list r]

/-- Elements of arrays are not larger than their distance, and types fit. -/
def EntFits (x : Place × MTy A) : Prop :=
  (∀ max mand, x.1.kind = .multi max mand → 0 < max ∧ byteSize x.2 ≤ x.1.pitch) ∧ TyFits x.2

theorem tabFits_list : ∀ t : MTab A, TabFits t → ∀ x ∈ t.list, EntFits x
  | .nil, _, _, h => by simp [MTab.list] at h
  | .cons p ty r, h, x, hx => by
    simp only [TabFits] at h
    rcases List.mem_cons.1 hx with rfl | hx'
    · exact ⟨h.1, h.2.1⟩
    · exact tabFits_list r h.2.2 x hx'

/-- The member of an entry contains these values. -/
def EntOk (x : Place × MTy A) (f : Bytes A) (s : List (Val A)) : Prop :=
  (x.1.kind = .opt → IsFlag (from_ f x.1.flagOfs) (s ≠ []) ∧ s.length ≤ 1) ∧
  (x.1.kind = .mand → s.length ≤ 1 ∧ (s = [] → AllZero (from_ f x.1.ofs) (byteSize x.2))) ∧
  (∀ max mand, x.1.kind = .multi max mand → IsCount (from_ f x.1.countOfs) s.length) ∧
  (∀ i v, s[i]? = some v → i < x.1.kind.cap → IsVal x.2 (from_ f (x.1.ofs + i * x.1.pitch)) v)

theorem isStruct_list : ∀ (t : MTab A) (f : Bytes A) (ss : Struct A),
    IsStruct t f ss ↔ All2 (fun x s => EntOk x f s) t.list ss
  | .nil, f, [] => by simp only [IsStruct, MTab.list, true_iff]; exact .nil
  | .nil, f, s :: ss => by simp only [IsStruct, MTab.list, false_iff]; intro h; cases h
  | .cons p ty r, f, [] => by simp only [IsStruct, MTab.list, false_iff]; intro h; cases h
  | .cons p ty r, f, s :: ss => by
    simp only [IsStruct, MTab.list]
    rw [isStruct_list r f ss]
    constructor
    · intro ⟨h1, h2, h3, h4, h5⟩
      exact .cons ⟨h1, h2, h3, h4⟩ h5
    · intro h
      cases h with
      | cons h hr => exact ⟨h.1, h.2.1, h.2.2.1, h.2.2.2, hr⟩

/-- Elements beyond those that have a value are zero. -/
def EntFree (x : Place × MTy A) (f : Bytes A) (s : List (Val A)) : Prop :=
  ∀ i, s.length ≤ i → i < x.1.kind.cap → AllZero (from_ f (x.1.ofs + i * x.1.pitch)) (byteSize x.2)

/-! ### Ranges -/

/-- A byte is in a range. -/
def InRange (i : Nat) (r : Range) : Prop := r.1 ≤ i ∧ i < r.1 + r.2

theorem Apart.not_in {x y : Range} (h : Apart x y) {i : Nat} (hi : InRange i x) : ¬ InRange i y := by
  unfold Apart at h; unfold InRange at *; omega

theorem Apart.symm {x y : Range} (h : Apart x y) : Apart y x := Or.symm h

/-- The bytes of an element are in the ranges of its entry. -/
theorem elem_in {x : Place × MTy A} (hf : EntFits x) {i j : Nat} (hi : i < x.1.kind.cap) (hj : j < byteSize x.2) :
    ∃ r ∈ ranges x.1 (byteSize x.2), InRange (x.1.ofs + i * x.1.pitch + j) r := by
  obtain ⟨p, ty⟩ := x
  simp only at *
  unfold ranges
  cases hk : p.kind with
  | mand =>
    rw [hk] at hi
    have : i = 0 := by simp only [Kind.cap] at hi; omega
    subst this
    exact ⟨_, List.mem_cons_self, by simp only [InRange]; omega⟩
  | opt =>
    rw [hk] at hi
    have : i = 0 := by simp only [Kind.cap] at hi; omega
    subst this
    exact ⟨(p.ofs, byteSize ty), by simp, by simp only [InRange]; omega⟩
  | multi max mand =>
    rw [hk] at hi
    simp only [Kind.cap] at hi
    have hp := (hf.1 max mand hk).2
    simp only at hp
    refine ⟨_, List.mem_cons_self, ?_⟩
    simp only [InRange]
    have h1 : (i + 1) * p.pitch ≤ max * p.pitch := Nat.mul_le_mul_right _ hi
    rw [Nat.add_mul, Nat.one_mul] at h1
    omega

theorem flag_in {p : Place} {size : Nat} (hk : p.kind = .opt) : (p.flagOfs, 1) ∈ ranges p size := by
  unfold ranges; rw [hk]; simp

theorem count_in {p : Place} {size max mand : Nat} (hk : p.kind = .multi max mand) : (p.countOfs, 4) ∈ ranges p size := by
  unfold ranges; rw [hk]; simp

theorem allZero_congr {f g : Bytes A} {n : Nat} (h : ∀ i, i < n → f i = g i) (z : AllZero f n) : AllZero g n :=
  fun i hi => (h i hi).symm.trans (z i hi)

theorem isFlag_congr {f g : Bytes A} {b : Bool} (h : f 0 = g 0) (z : IsFlag f b) : IsFlag g b := by
  obtain ⟨x, h1, h2⟩ := z
  exact ⟨x, h.symm.trans h1, h2⟩

theorem isCount_congr {f g : Bytes A} {n : Nat} (h : ∀ i, i < 4 → f i = g i) (z : IsCount f n) : IsCount g n := by
  obtain ⟨b0, b1, b2, b3, h0, h1, h2, h3, h4⟩ := z
  exact ⟨b0, b1, b2, b3, (h 0 (by decide)).symm.trans h0, (h 1 (by decide)).symm.trans h1, (h 2 (by decide)).symm.trans h2,
    (h 3 (by decide)).symm.trans h3, h4⟩

/-- Two pieces of memory are the same in ranges. -/
def SameIn (rs : List Range) (f g : Bytes A) : Prop := ∀ r ∈ rs, ∀ i, InRange i r → f i = g i

theorem SameIn.flag {p : Place} {size : Nat} {f g : Bytes A} (h : SameIn (ranges p size) f g) (hk : p.kind = .opt) :
    from_ f p.flagOfs 0 = from_ g p.flagOfs 0 := h _ (flag_in hk) _ (by simp [InRange])

theorem SameIn.count {p : Place} {size max mand : Nat} {f g : Bytes A} (h : SameIn (ranges p size) f g)
    (hk : p.kind = .multi max mand) (i : Nat) (hi : i < 4) : from_ f p.countOfs i = from_ g p.countOfs i :=
  h _ (count_in hk) _ (by simp only [InRange]; omega)

theorem SameIn.elem {x : Place × MTy A} {f g : Bytes A} (h : SameIn (ranges x.1 (byteSize x.2)) f g) (hf : EntFits x)
    {i j : Nat} (hi : i < x.1.kind.cap) (hj : j < byteSize x.2) :
    from_ f (x.1.ofs + i * x.1.pitch) j = from_ g (x.1.ofs + i * x.1.pitch) j := by
  obtain ⟨r, hr, hin⟩ := elem_in hf hi hj
  exact h r hr _ hin

theorem entFree_congr {x : Place × MTy A} {f g : Bytes A} {s} (h : SameIn (ranges x.1 (byteSize x.2)) f g) (hf : EntFits x)
    (z : EntFree x f s) : EntFree x g s :=
  fun i h1 h2 => allZero_congr (fun _ hj => h.elem hf h2 hj) (z i h1 h2)

mutual
theorem isVal_congr : ∀ (ty : MTy A) (f g : Bytes A) (v : Val A), TyFits ty → (∀ i, i < byteSize ty → f i = g i) →
    IsVal ty f v → IsVal ty g v
  | .leaf l, f, g, .leaf a, _, h, z => by
    simp only [IsVal, byteSize] at *
    rcases z with z | z
    · exact .inl fun i hi => (h i hi).symm.trans (z i hi)
    · exact .inr ⟨z.1, allZero_congr h z.2⟩
  | .leaf _, _, _, .node _, _, _, z => by simp only [IsVal] at z
  | .nested _ _ _ _, _, _, .leaf _, _, _, z => by simp only [IsVal] at z
  | .nested size cfg o t, f, g, .node ss, ht, h, z => by
    simp only [IsVal, TyFits, byteSize] at *
    refine isStruct_congr t f g ss ht.2.2.2 ?_ z
    intro r hr i hi
    have := ht.2.2.1 r hr
    unfold InRange at hi
    exact h i (by omega)
theorem isStruct_congr : ∀ (t : MTab A) (f g : Bytes A) (ss : Struct A), TabFits t → SameIn (tableRanges t) f g →
    IsStruct t f ss → IsStruct t g ss
  | .nil, _, _, [], _, _, _ => by simp only [IsStruct]
  | .nil, _, _, _ :: _, _, _, z => by simp only [IsStruct] at z
  | .cons _ _ _, _, _, [], _, _, z => by simp only [IsStruct] at z
  | .cons p ty r, f, g, s :: ss, ht, h, z => by
    simp only [IsStruct, TabFits, tableRanges] at *
    have hf : EntFits (p, ty) := ⟨ht.1, ht.2.1⟩
    have h1 : SameIn (ranges p (byteSize ty)) f g := fun r hr => h r (List.mem_append_left _ hr)
    have h2 : SameIn (tableRanges r) f g := fun r hr => h r (List.mem_append_right _ hr)
    refine ⟨fun hk => ⟨isFlag_congr (h1.flag hk) (z.1 hk).1, (z.1 hk).2⟩, fun hk => ⟨(z.2.1 hk).1, fun e => ?_⟩,
      fun max mand hk => isCount_congr (h1.count hk) (z.2.2.1 max mand hk), fun i v hv hi => ?_,
      isStruct_congr r f g ss ht.2.2 h2 z.2.2.2.2⟩
    · refine allZero_congr (fun j hj => ?_) ((z.2.1 hk).2 e)
      have := h1.elem (x := (p, ty)) hf (i := 0) (by simp only [hk, Kind.cap]; decide) hj
      simpa using this
    · exact isVal_congr ty _ _ v ht.2.1 (fun j hj => h1.elem (x := (p, ty)) hf hi hj) (z.2.2.2.1 i v hv hi)
end

theorem entOk_congr {x : Place × MTy A} {f g : Bytes A} {s} (h : SameIn (ranges x.1 (byteSize x.2)) f g) (hf : EntFits x)
    (z : EntOk x f s) : EntOk x g s := by
  refine ⟨fun hk => ⟨isFlag_congr (h.flag hk) (z.1 hk).1, (z.1 hk).2⟩, fun hk => ⟨(z.2.1 hk).1, fun e => ?_⟩,
      fun max mand hk => isCount_congr (h.count hk) (z.2.2.1 max mand hk), fun i v hv hi => ?_⟩
  · refine allZero_congr (fun j hj => ?_) ((z.2.1 hk).2 e)
    have := h.elem hf (i := 0) (by simp only [hk, Kind.cap]; decide) hj
    simpa using this
  · exact isVal_congr x.2 _ _ v hf.2 (fun j hj => h.elem hf hi hj) (z.2.2.2 i v hv hi)

/-! ### Invariant of a struct that is being decoded -/

/-- The struct contains these values, and nothing else. -/
def Laid (L : List (Place × MTy A)) (f : Bytes A) (ss : Struct A) : Prop :=
  All2 (fun x s => EntOk x f s ∧ EntFree x f s) L ss

/-- A list of entries fits a struct. -/
structure ListFits (L : List (Place × MTy A)) (size : Nat) : Prop where
  apart : (L.flatMap fun x => ranges x.1 (byteSize x.2)).Pairwise Apart
  inside : ∀ x ∈ L, ∀ r ∈ ranges x.1 (byteSize x.2), r.1 + r.2 ≤ size
  fits : ∀ x ∈ L, EntFits x

theorem Spec.Fits.list {t : MTab A} {size} (h : Fits t size) : ListFits t.list size := by
  refine ⟨by rw [← tableRanges_list]; exact h.apart, fun x hx r hr => ?_, tabFits_list t h.members⟩
  refine h.inside r ?_
  rw [tableRanges_list]
  exact List.mem_flatMap.2 ⟨x, hx, hr⟩

theorem inv_zero (L : List (Place × MTy A)) {size} (h : ListFits L size) {f : Bytes A} (hz : AllZero f size) :
    Laid L f (L.map fun _ => []) := by
  have : ∀ x ∈ L, EntOk x f [] ∧ EntFree x f [] := by
    intro x hx
    have hin := h.inside x hx
    have he : EntFree x f [] := by
      intro i _ hi j hj
      obtain ⟨r, hr, h1⟩ := elem_in (h.fits x hx) hi hj
      have := hin r hr
      unfold InRange at h1
      exact hz _ (by omega)
    refine ⟨⟨fun hk => ⟨⟨0, ?_, by simp⟩, by simp⟩, fun hk => ⟨by simp, fun _ => ?_⟩, fun max mand hk => ?_, by simp⟩, he⟩
    · have := hin _ (flag_in hk)
      exact hz _ (by simp only at this; omega)
    · have := he 0 (by simp) (by simp only [hk, Kind.cap]; decide)
      simpa using this
    · have := hin _ (count_in hk)
      simp only at this
      exact ⟨0, 0, 0, 0, hz _ (by omega), hz _ (by omega), hz _ (by omega), hz _ (by omega), rfl⟩
  clear h
  induction L with
  | nil => exact .nil
  | cons x L ih => exact .cons (this x List.mem_cons_self) (ih fun y hy => this y (List.mem_cons_of_mem _ hy))

theorem All2.get {α β} {R : α → β → Prop} {l l'} (h : All2 R l l') {i : Nat} {a b} (ha : l[i]? = some a) (hb : l'[i]? = some b) :
    R a b := by
  induction h generalizing i with
  | nil => simp at ha
  | cons hx _ ih =>
    cases i with
    | zero => simp at ha hb; subst ha hb; exact hx
    | succ i => exact ih (by simpa using ha) (by simpa using hb)

theorem All2.split {α β} {R : α → β → Prop} {l1 : List α} {x : α} {l2 : List α} {l'} (h : All2 R (l1 ++ x :: l2) l') :
    ∃ s1 s s2, l' = s1 ++ s :: s2 ∧ All2 R l1 s1 ∧ R x s ∧ All2 R l2 s2 := by
  induction l1 generalizing l' with
  | nil =>
    cases h with
    | cons hx hr => exact ⟨[], _, _, rfl, .nil, hx, hr⟩
  | cons y l1 ih =>
    cases h with
    | cons hx hr =>
      obtain ⟨s1, s, s2, rfl, h1, h2, h3⟩ := ih hr
      exact ⟨_ :: s1, s, s2, rfl, .cons hx h1, h2, h3⟩

theorem All2.append {α β} {R : α → β → Prop} {l1 l2 : List α} {s1 s2 : List β} (h1 : All2 R l1 s1) (h2 : All2 R l2 s2) :
    All2 R (l1 ++ l2) (s1 ++ s2) := by
  induction h1 with
  | nil => exact h2
  | cons hx _ ih => exact .cons hx ih

theorem All2.imp_mem {α β} {R R' : α → β → Prop} {l : List α} {l' : List β} (x : All2 R l l')
    (h : ∀ a ∈ l, ∀ b, R a b → R' a b) : All2 R' l l' := by
  induction x with
  | nil => exact .nil
  | cons hx _ ih =>
    exact .cons (h _ List.mem_cons_self _ hx) (ih fun a ha => h a (List.mem_cons_of_mem _ ha))

/-- Ranges of different entries are apart. -/
theorem ListFits.others {L1 L2 : List (Place × MTy A)} {x size} (h : ListFits (L1 ++ x :: L2) size) :
    ∀ y, y ∈ L1 ∨ y ∈ L2 → ∀ r ∈ ranges y.1 (byteSize y.2), ∀ q ∈ ranges x.1 (byteSize x.2), Apart r q := by
  intro y hy r hr q hq
  have hp := h.apart
  rw [List.flatMap_append, List.flatMap_cons] at hp
  rcases hy with hy | hy
  · have := (List.pairwise_append.1 hp).2.2 r (List.mem_flatMap.2 ⟨y, hy, hr⟩) q (List.mem_append_left _ hq)
    exact this
  · have h1 := (List.pairwise_append.1 hp).2.1
    exact ((List.pairwise_append.1 h1).2.2 q hq r (List.mem_flatMap.2 ⟨y, hy, hr⟩)).symm

/-- Changes in the ranges of one entry do not affect the others. -/
theorem Laid.update {L1 L2 : List (Place × MTy A)} {x size} (h : ListFits (L1 ++ x :: L2) size) {f g : Bytes A}
    {s1 s s' s2} (hl : L1.length = s1.length) (hi : Laid (L1 ++ x :: L2) f (s1 ++ s :: s2))
    (hsame : ∀ i, (∀ r ∈ ranges x.1 (byteSize x.2), ¬ InRange i r) → f i = g i) (hx : EntOk x g s' ∧ EntFree x g s') :
    Laid (L1 ++ x :: L2) g (s1 ++ s' :: s2) := by
  obtain ⟨t1, t, t2, he, h1, _, h2⟩ := All2.split hi
  have hlen : t1.length = s1.length := by rw [← h1.length, hl]
  obtain ⟨rfl, he2⟩ := List.append_inj he.symm hlen
  obtain ⟨rfl, rfl⟩ : t = s ∧ t2 = s2 := by simpa using he2
  have keep : ∀ y, y ∈ L1 ∨ y ∈ L2 → SameIn (ranges y.1 (byteSize y.2)) f g := by
    intro y hy r hr i hin
    refine hsame i fun q hq => ?_
    exact Apart.not_in (h.others y hy r hr q hq) hin
  refine All2.append (h1.imp_mem fun y hy b hb => ?_) (.cons hx (h2.imp_mem fun y hy b hb => ?_))
  · have hf := h.fits y (by simp [hy])
    exact ⟨entOk_congr (keep y (.inl hy)) hf hb.1, entFree_congr (keep y (.inl hy)) hf hb.2⟩
  · have hf := h.fits y (by simp [hy])
    exact ⟨entOk_congr (keep y (.inr hy)) hf hb.1, entFree_congr (keep y (.inr hy)) hf hb.2⟩

/-! ### Reading and writing -/

theorem membof_ok {m : Mem A} {obj ofs : Nat} (h : obj + ofs < m.size) : membof m obj ofs = .ok (obj + ofs) := if_pos h

theorem byte_ok {m : Mem A} {a : Nat} {b : UInt8} (h : a < m.size) (hb : m.at_ a = .raw b) : m.byte a = .ok b := by
  unfold Mem.byte; rw [if_pos h, hb]

theorem flag_ok {m : Mem A} {a : Nat} {b : Bool} (h : a < m.size) (hb : IsFlag (bytes m a) b) : m.flag a = .ok b := by
  obtain ⟨x, h1, h2⟩ := hb
  unfold Mem.flag
  rw [byte_ok h (by simpa [bytes] using h1)]
  simp only [Res.bind_ok']
  congr 1
  cases b with
  | true => simpa using h2
  | false => simpa using h2

theorem count_ok {m : Mem A} {a n : Nat} (h : a + 4 ≤ m.size) (hb : IsCount (bytes m a) n) : m.count a = .ok n := by
  obtain ⟨b0, b1, b2, b3, h0, h1, h2, h3, h4⟩ := hb
  unfold Mem.count
  rw [byte_ok (by omega) (by simpa [bytes] using h0), byte_ok (by omega) h1, byte_ok (by omega) h2, byte_ok (by omega) h3]
  simp only [Res.bind_ok', h4]

theorem from_bytes (m : Mem A) (obj ofs : Nat) : from_ (bytes m obj) ofs = bytes m (obj + ofs) := by
  funext i; simp only [from_, bytes, Nat.add_assoc]

theorem store_ok {m : Mem A} {a k : Nat} (f : Nat → Cell A) (h : a + k ≤ m.size) :
    ∃ m', m.store a k f = .ok m' ∧ OnlyIn (a, k) m m' ∧ ∀ i, i < k → bytes m' a i = f i := by
  unfold Mem.store
  rw [if_pos h]
  refine ⟨_, rfl, ⟨rfl, fun i hi => ?_⟩, fun i hi => ?_⟩
  · simp only at hi ⊢
    rw [if_neg (by omega)]
  · simp only [bytes]
    rw [if_pos (by omega), Nat.add_sub_cancel_left]

theorem setFlag_ok {m : Mem A} {a : Nat} (b : Bool) (h : a + 1 ≤ m.size) :
    ∃ m', m.setFlag a b = .ok m' ∧ OnlyIn (a, 1) m m' ∧ IsFlag (bytes m' a) b := by
  obtain ⟨m', h1, h2, h3⟩ := store_ok (fun _ => Cell.raw (if b then 1 else 0)) h
  refine ⟨m', h1, h2, _, h3 0 (by decide), ?_⟩
  cases b <;> simp

theorem setCount_ok {m : Mem A} {a n : Nat} (h : a + 4 ≤ m.size) (hn : n < 2 ^ 32) :
    ∃ m', m.setCount a n = .ok m' ∧ OnlyIn (a, 4) m m' ∧ IsCount (bytes m' a) n := by
  obtain ⟨m', h1, h2, h3⟩ := store_ok (fun i => Cell.raw (A := A) ((storeBE 4 n).getD i 0)) h
  refine ⟨m', h1, h2, _, _, _, _, h3 0 (by decide), h3 1 (by decide), h3 2 (by decide), h3 3 (by decide), ?_⟩
  have : [(storeBE 4 n).getD 0 0, (storeBE 4 n).getD 1 0, (storeBE 4 n).getD 2 0, (storeBE 4 n).getD 3 0] = storeBE 4 n := by
    simp [storeBE]
  rw [this]
  exact loadBE_storeBE_of_lt (by simpa using hn)

theorem OnlyIn.refl (r : Range) (m : Mem A) : OnlyIn r m m := ⟨rfl, fun _ _ => rfl⟩

theorem OnlyIn.trans {r : Range} {a b c : Mem A} (h1 : OnlyIn r a b) (h2 : OnlyIn r b c) : OnlyIn r a c :=
  ⟨h2.1.trans h1.1, fun i hi => (h2.2 i hi).trans (h1.2 i hi)⟩

theorem OnlyIn.mono {r q : Range} {a b : Mem A} (h : OnlyIn r a b) (h1 : q.1 ≤ r.1) (h2 : r.1 + r.2 ≤ q.1 + q.2) : OnlyIn q a b :=
  ⟨h.1, fun i hi => h.2 i (by omega)⟩

end Verif
