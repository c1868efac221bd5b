/-
C88: decoding to a struct in memory; C89: encoding from it.
-/
import Verif.LayoutEnc
import Verif.PropsDecEnc2

namespace Verif
open Spec

instance (x y : Range) : Decidable (Apart x y) := inferInstanceAs (Decidable (_ ∨ _))

namespace Props

variable {A : Type} [DecidableEq A]

/-! ### C88: decoding -/

/-- C88: if the table fits the struct, and the struct is zero, then osmo_gtlvs_decode() does what it should: it returns what
decoding the members one by one would return, has written no byte outside of the struct, and on success the struct contains
the values: the flags and counts say how many there are, and they are where the offsets say. -/
theorem C88_decode {t : MTab A} {size obj : Nat} {m : Mem A} (hf : Fits t size) (hroom : obj + size ≤ m.size)
    (hsmall : m.size < 2 ^ 32) (hz : AllZero (bytes m obj) size) (g : Load) (ordered : Bool) :
    Agrees (obj, size) m (fun m' ss => IsStruct t (bytes m' obj) ss) (gtlvsDecodeM obj g ordered m (some t.entries))
      (gtlvsDecode g ordered (some (slotsOf t))) := by
  have := gtlvsM_ok hf.list hf.nonempty hroom hsmall hz (tab_law t hf.members) g ordered
  cases hd : gtlvsDecode g ordered (some (slotsOf t)) with
  | ok v =>
    rw [hd] at this
    obtain ⟨m', e, ho, h⟩ := this
    exact ⟨m', e, ho, (isStruct_list _ _ _).2 (h.inv.imp_mem fun _ _ _ hb => hb.1)⟩
  | err e => rw [hd] at this; exact this
  | abort => rw [hd] at this; exact this
  | ub => rw [hd] at this; exact this
  | diverge => rw [hd] at this; exact this

/-- C88: no byte outside of the struct is written, whatever the input, and also when decoding fails. -/
theorem C88_only_its_struct {t : MTab A} {size obj : Nat} {m m' : Mem A} (hf : Fits t size) (hroom : obj + size ≤ m.size)
    (hsmall : m.size < 2 ^ 32) (hz : AllZero (bytes m obj) size) (g : Load) (ordered : Bool)
    (h : gtlvsDecodeM obj g ordered m (some t.entries) = .ok m' ∨
      ∃ e, gtlvsDecodeM obj g ordered m (some t.entries) = .err e m') :
    m'.size = m.size ∧ ∀ i, (i < obj ∨ obj + size ≤ i) → m'.at_ i = m.at_ i := by
  have := C88_decode hf hroom hsmall hz g ordered
  cases hd : gtlvsDecode g ordered (some (slotsOf t)) with
  | ok v =>
    rw [hd] at this
    obtain ⟨m1, e1, ho, _⟩ := this
    rcases h with h | ⟨e, h⟩
    · rw [h] at e1; cases e1; exact ho
    · rw [h] at e1; cases e1
  | err e =>
    rw [hd] at this
    obtain ⟨m1, e1, ho⟩ := this
    rcases h with h | ⟨e, h⟩
    · rw [h] at e1; cases e1
    · rw [h] at e1; cases e1; exact ho
  | abort => rw [hd] at this; rcases h with h | ⟨e, h⟩ <;> rw [h] at this <;> cases this
  | ub => rw [hd] at this; rcases h with h | ⟨e, h⟩ <;> rw [h] at this <;> cases this
  | diverge => rw [hd] at this; rcases h with h | ⟨e, h⟩ <;> rw [h] at this <;> cases this

/-- C88: no assertion about addresses fails, and nothing is read or written that is not a member: the only way to an assertion,
undefined behaviour or a loop is that decoding the members one by one has it, too, in a function for an IE. -/
theorem C88_no_assertion {t : MTab A} {size obj : Nat} {m : Mem A} (hf : Fits t size) (hroom : obj + size ≤ m.size)
    (hsmall : m.size < 2 ^ 32) (hz : AllZero (bytes m obj) size) (g : Load) (ordered : Bool)
    (h : (gtlvsDecode g ordered (some (slotsOf t))).Returns) :
    ∃ m', gtlvsDecodeM obj g ordered m (some t.entries) = .ok m' ∨
      ∃ e, gtlvsDecodeM obj g ordered m (some t.entries) = .err e m' := by
  have := C88_decode hf hroom hsmall hz g ordered
  cases hd : gtlvsDecode g ordered (some (slotsOf t)) with
  | ok v =>
    rw [hd] at this
    obtain ⟨m1, e1, _⟩ := this
    exact ⟨m1, .inl e1⟩
  | err e =>
    rw [hd] at this
    obtain ⟨m1, e1, _⟩ := this
    exact ⟨m1, .inr ⟨e, e1⟩⟩
  | abort => rw [hd] at h; exact h.elim
  | ub => rw [hd] at h; exact h.elim
  | diverge => rw [hd] at h; exact h.elim

/-- C88: what is in memory after decoding a sequence of IEs in any order: for the member of each entry, the flag or count says how
many IEs with its tag there are, and element j is at `ofs + j * pitch` and is what the j-th of them contains. -/
theorem C88_members (w : Width) {t : MTab A} {size obj : Nat} {m m' : Mem A} (hf : Fits t size) (hroom : obj + size ≤ m.size)
    (hsmall : m.size < 2 ^ 32) (hz : AllZero (bytes m obj) size) (ies : List Ie) (hfit : ∀ x ∈ ies, w.Fits x) (rest : List UInt8)
    (hsm : SmallTable (slotsOf t)) (hdt : DistinctTags (slotsOf t)) (hloc : ∀ c ∈ slotsOf t, LooksOnlyAtIe c)
    (h : gtlvsDecodeM obj (fresh w.cfg (w.octets ies ++ rest) (w.octets ies).length) false m (some t.entries) = .ok m') :
    ∀ x ∈ t.list,
      (x.1.kind = .mand → count x.1.ti ies = 1) ∧
      (x.1.kind = .opt → count x.1.ti ies ≤ 1 ∧ IsFlag (bytes m' (obj + x.1.flagOfs)) (count x.1.ti ies ≠ 0)) ∧
      (∀ max mand, x.1.kind = .multi max mand → mand ≤ count x.1.ti ies ∧ count x.1.ti ies ≤ max ∧
        IsCount (bytes m' (obj + x.1.countOfs)) (count x.1.ti ies)) ∧
      ∀ (j : Nat) ie, (withTag x.1.ti ies)[j]? = some ie → ∃ v, Decodes (slotOf x.1 x.2) ie.2 v ∧
        IsVal x.2 (bytes m' (obj + (x.1.ofs + j * x.1.pitch))) v := by
  have hA := C88_decode hf hroom hsmall hz (fresh w.cfg (w.octets ies ++ rest) (w.octets ies).length) false
  have hmost : ∀ k : Kind, most k = k.cap := fun k => by cases k <;> rfl
  cases hd : gtlvsDecode (fresh w.cfg (w.octets ies ++ rest) (w.octets ies).length) false (some (slotsOf t)) with
  | ok ss =>
    rw [hd] at hA
    obtain ⟨m1, e1, ho, hst⟩ := hA
    rw [h] at e1
    cases e1
    have hroom' : ∀ c ∈ slotsOf t, most c.kind ≠ 0 := by
      intro c hc
      rw [slotsOf_list] at hc
      obtain ⟨x, hx, rfl⟩ := List.mem_map.1 hc
      have := cap_pos (hf.list.fits x hx)
      rw [slotOf_kind, hmost]
      omega
    obtain ⟨hob, hdec⟩ := (C08_unordered_iff w (slotsOf t) ies hfit rest hsm hdt hloc hroom' ss).1 hd
    have hall := (isStruct_list _ _ _).1 hst
    intro x hx
    obtain ⟨i, hi⟩ := List.getElem?_of_mem hx
    obtain ⟨s, hs, hok⟩ := All2.at hall hi
    have hti : (slotsOf t)[i]? = some (slotOf x.1 x.2) := by rw [slotsOf_list, List.getElem?_map, hi]; rfl
    have hlen := hob.2 i _ s hti hs
    have hD := hdec i _ s hti hs
    rw [slotOf_kind] at hlen
    rw [slotOf_ti] at hD
    have hcount : s.length = count x.1.ti ies := by
      rw [← hD.length, List.length_map]; rfl
    refine ⟨fun hk => ?_, fun hk => ?_, fun max mand hk => ?_, fun j ie hj => ?_⟩
    · rw [hk] at hlen
      simp only [least, most] at hlen
      omega
    · rw [hk] at hlen
      simp only [least, most] at hlen
      refine ⟨by omega, ?_⟩
      have := (hok.1 hk).1
      rw [from_bytes] at this
      rw [← hcount]
      simpa using this
    · rw [hk] at hlen
      simp only [least, most] at hlen
      have := hok.2.2.1 _ _ hk
      rw [from_bytes, hcount] at this
      exact ⟨by omega, by omega, this⟩
    · have hj' : ((withTag x.1.ti ies).map fun x => x.2)[j]? = some ie.2 := by rw [List.getElem?_map, hj]; rfl
      obtain ⟨v, hv, hdv⟩ := All2.at hD hj'
      have hjl : j < s.length := by
        rcases Nat.lt_or_ge j s.length with h' | h'
        · exact h'
        · rw [List.getElem?_eq_none h'] at hv; cases hv
      have := hok.2.2.2 j v hv (by rw [← hmost]; omega)
      rw [from_bytes] at this
      exact ⟨v, hdv, this⟩
  | err e => rw [hd] at hA; obtain ⟨_, e1, _⟩ := hA; rw [h] at e1; cases e1
  | abort => rw [hd] at hA; cases h.symm.trans hA
  | ub => rw [hd] at hA; cases h.symm.trans hA
  | diverge => rw [hd] at hA; cases h.symm.trans hA

/-! ### C89: encoding -/

/-- C89: osmo_gtlvs_encode() encodes what the struct in memory contains: it returns and writes what encoding the members one by
one would, unless that has undefined behaviour (see the concrete case below). -/
theorem C89_encode {t : MTab A} {size obj : Nat} {m : Mem A} (hf : Fits t size) (hroom : obj + size ≤ m.size)
    (hsmall : m.size < 2 ^ 32) {ss : Struct A} (h : IsStruct t (bytes m obj) ss) (cfg : Cfg) (b : Msgb) :
    gtlvsEncode cfg ss b (some (slotsOf t)) = .ub ∨
    gtlvsEncodeM cfg obj m b (some t.entries) = gtlvsEncode cfg ss b (some (slotsOf t)) :=
  gtlvsEncodeM_ok cfg hf.list hf.nonempty hroom hsmall (tab_encLaw t hf.members) h b

/-- C89: what has been encoded from one struct in memory and is decoded to another one, which is zero, is there then: the struct
contains the same values. -/
theorem C89_round_trip (w : Width) {t : MTab A} {size obj obj' : Nat} {m m' : Mem A} (hf : Fits t size) (hroom : obj + size ≤ m.size)
    (hsmall : m.size < 2 ^ 32) {ss : Struct A} (h : IsStruct t (bytes m obj) ss) (hdt : DistinctTags (slotsOf t))
    (hsm : SmallTable (slotsOf t)) (hob : Obeys (slotsOf t) ss) (hcod : AllCodec w (slotsOf t) ss)
    (hroom' : obj' + size ≤ m'.size) (hsmall' : m'.size < 2 ^ 32) (hz : AllZero (bytes m' obj') size) :
    ∃ octets : List UInt8,
      (∀ b : Msgb, b.data.length + octets.length ≤ b.cap →
        gtlvsEncodeM w.cfg obj m b (some t.entries) = .ok { b with data := b.data ++ octets }) ∧
      ∀ rest, ∃ m2, gtlvsDecodeM obj' (fresh w.cfg (octets ++ rest) octets.length) false m' (some t.entries) = .ok m2 ∧
        OnlyIn (obj', size) m' m2 ∧ IsStruct t (bytes m2 obj') ss := by
  obtain ⟨octets, h1, h2⟩ := C14_round_trip_unordered w (slotsOf t) ss hdt hsm hob hcod
  refine ⟨octets, fun b hb => ?_, fun rest => ?_⟩
  · rcases C89_encode hf hroom hsmall h w.cfg b with hu | he
    · rw [h1 b hb] at hu; cases hu
    · rw [he, h1 b hb]
  · have := C88_decode hf hroom' hsmall' hz (fresh w.cfg (octets ++ rest) octets.length) false
    rw [h2 rest] at this
    exact this

/-! ### Concrete cases -/

/-- An IE of up to four octets, in a member of four bytes. -/
def four : Leaf (List UInt8) where
  size := 4
  zero := []
  left := fun _ _ _ => .raw 255
  dec := fun p n => if n ≤ 4 then rdN p 0 n else .err .EINVAL
  enc := fun a b => b.put a

/-- `struct { four a; bool b_present; four b; }` -/
def exInner : MTab (List UInt8) :=
  .cons { ti := { tag := 1 }, kind := .mand, ofs := 0 } (.leaf four) <|
  .cons { ti := { tag := 2 }, kind := .opt, ofs := 8, flagOfs := 4 } (.leaf four) .nil

/-- `struct { four a; bool b_present; four b; struct inner c[2]; unsigned int c_count; }` -/
def exOuter : MTab (List UInt8) :=
  .cons { ti := { tag := 1 }, kind := .mand, ofs := 0 } (.leaf four) <|
  .cons { ti := { tag := 2 }, kind := .opt, ofs := 8, flagOfs := 4 } (.leaf four) <|
  .cons { ti := { tag := 3 }, kind := .multi 2 1, ofs := 12, pitch := 12, countOfs := 36 } (.nested 12 t8l8v false exInner) .nil

theorem exOuter_fits : Fits exOuter 40 := by
  refine ⟨by decide, by decide, by decide, ?_⟩
  simp [exOuter, exInner, TabFits, TyFits, byteSize, four, tableRanges, ranges, Apart]

/-- Is the memory as listed? -/
def showsB (m : Mem (List UInt8)) (l : List (Cell (List UInt8))) : Bool :=
  decide (m.size = l.length) && (List.range l.length).all fun i => decide (l[i]? = some (m.at_ i))

/-- Decode; is this what is in memory then? -/
def decodedB (o : Out (Mem (List UInt8))) (l : List (Cell (List UInt8))) : Bool :=
  match o with
  | .ok m => showsB m l
  | _ => false

def p4 (v : List UInt8) : List (Cell (List UInt8)) := [.part v 0, .part v 1, .part v 2, .part v 3]
def z (n : Nat) : List (Cell (List UInt8)) := List.replicate n (.raw 0)

/-- The struct at 8 of 64 bytes: what is decoded, byte for byte. -/
example : decodedB (gtlvsDecodeM 8 (fresh t8l8v [3, 3, 1, 1, 7, 1, 1, 9, 3, 5, 2, 1, 5, 1, 0] 15) false (Mem.zero _ 64)
    (some exOuter.entries))
    (z 8 ++ p4 [9] ++ z 8 ++ (p4 [7] ++ z 8) ++ (p4 [] ++ [.raw 1] ++ z 3 ++ p4 [5]) ++ [.raw 0, .raw 0, .raw 0, .raw 2] ++ z 16) =
    true := by decide +kernel

/-- The third one does not fit: an error, and bytes outside of the struct are unchanged. -/
example : ∃ m', gtlvsDecodeM 8 (fresh t8l8v [3, 2, 1, 0, 3, 2, 1, 0, 3, 2, 1, 0] 12) false (Mem.zero _ 64) (some exOuter.entries) =
    .err .ENOTSUP m' ∧ m'.at_ 48 = .raw 0 := by
  obtain ⟨m', h⟩ : ∃ m', gtlvsDecodeM 8 (fresh t8l8v [3, 2, 1, 0, 3, 2, 1, 0, 3, 2, 1, 0] 12) false (Mem.zero _ 64)
      (some exOuter.entries) = .err .ENOTSUP m' := ⟨_, rfl⟩
  exact ⟨m', h, (C88_only_its_struct exOuter_fits (by decide) (by decide) (fun _ _ => rfl) _ false (.inr ⟨_, h⟩)).2 48 (.inr (by decide))⟩

/-- `C88_members` is about such a case: two IEs with tag 3. -/
example : ∃ m', gtlvsDecodeM 8 (fresh t8l8v [3, 3, 1, 1, 7, 1, 1, 9, 3, 5, 2, 1, 5, 1, 0] 15) false (Mem.zero _ 64)
    (some exOuter.entries) = .ok m' ∧ Width.w8.octets [(3, [1, 1, 7]), (1, [9]), (3, [2, 1, 5, 1, 0])] =
      [3, 3, 1, 1, 7, 1, 1, 9, 3, 5, 2, 1, 5, 1, 0] ∧
    count { tag := 3 } [(3, [1, 1, 7]), (1, [9]), (3, [2, 1, 5, 1, 0])] = 2 := ⟨_, rfl, rfl, by decide⟩

/-- C88 does not hold for a struct that is not zero: the same message decoded twice to the same struct. -/
theorem C88_not_zero : ∃ m', gtlvsDecodeM 0 (fresh t8l8v [2, 1, 5, 1, 0] 5) false (Mem.zero _ 12) (some exInner.entries) = .ok m' ∧
    ∃ m2, gtlvsDecodeM 0 (fresh t8l8v [2, 1, 5, 1, 0] 5) false m' (some exInner.entries) = .err .ENOTSUP m2 :=
  ⟨_, rfl, _, rfl⟩

/-- A table whose array overlaps with the member before it (`pitch` and offsets as for elements of 2 bytes). -/
def exOverlap : MTab (List UInt8) :=
  .cons { ti := { tag := 1 }, kind := .mand, ofs := 0 } (.leaf four) <|
  .cons { ti := { tag := 2 }, kind := .multi 2 0, ofs := 2, pitch := 2, countOfs := 8 } (.leaf four) .nil

/-- C88 does not hold if members overlap: the value of the first one is lost. -/
theorem C88_overlap : gtlvsDecode (fresh t8l8v [1, 1, 9, 2, 1, 5] 6) false (some (slotsOf exOverlap)) =
      .ok [[.leaf [9]], [.leaf [5]]] ∧
    ∃ m', gtlvsDecodeM 0 (fresh t8l8v [1, 1, 9, 2, 1, 5] 6) false (Mem.zero _ 12) (some exOverlap.entries) = .ok m' ∧
      four.load m' 0 = .ub := ⟨rfl, _, rfl, rfl⟩

/-- C88 does not hold if the struct is smaller than the table says: an assertion fails; or, as only the first byte of a member is
checked, bytes behind the struct are written. -/
theorem C88_too_small :
    gtlvsDecodeM 0 (fresh t8l8v [2, 1, 5, 1, 0] 5) false (Mem.zero _ 8) (some exInner.entries) = .abort ∧
    gtlvsDecodeM 0 (fresh t8l8v [2, 1, 5, 1, 0] 5) false (Mem.zero _ 10) (some exInner.entries) = .ub := ⟨rfl, rfl⟩

/-- Encoding what has been decoded. -/
example : ∃ m', gtlvsDecodeM 8 (fresh t8l8v [3, 3, 1, 1, 7, 1, 1, 9, 3, 5, 2, 1, 5, 1, 0] 15) false (Mem.zero _ 64)
    (some exOuter.entries) = .ok m' ∧ gtlvsEncodeM t8l8v 8 m' ⟨64, []⟩ (some exOuter.entries) =
      .ok ⟨64, [1, 1, 9, 3, 3, 1, 1, 7, 3, 5, 1, 0, 2, 1, 5]⟩ := ⟨_, rfl, rfl⟩

/-- Encoding a struct that is zero: mandatory members have the value that all zero bytes are. -/
example : gtlvsEncodeM t8l8v 0 (Mem.zero _ 12) ⟨64, []⟩ (some exInner.entries) = .ok ⟨64, [1, 0]⟩ ∧
    IsStruct exInner (bytes (Mem.zero _ 12) 0) [[.leaf []], []] ∧
    gtlvsEncode t8l8v [[.leaf []], []] ⟨64, []⟩ (some (slotsOf exInner)) = .ok ⟨64, [1, 0]⟩ := by
  refine ⟨rfl, ?_, rfl⟩
  simp only [exInner, IsStruct, from_, bytes, Mem.zero, AllZero]
  refine ⟨by simp, by simp, by simp, ?_, ?_⟩
  · intro i v hv _
    match i with
    | 0 => simp at hv; subst hv; simp only [IsVal]; exact .inr ⟨rfl, fun _ _ => rfl⟩
    | i + 1 => simp at hv
  · exact ⟨fun _ => ⟨⟨0, rfl, by simp⟩, by simp⟩, by simp, by simp, by simp, trivial⟩

end Props
end Verif
