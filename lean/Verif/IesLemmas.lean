/- Helper lemmas about the IE codecs (no property theorems here). -/
import Verif.BasicLemmas
import Verif.SpecIes
import Verif.SpecDecEnc

namespace Verif
open Verif.Spec

theorem Res.bind_eq_ok {α β} {x : Res α} {f : α → Res β} {b : β} (h : x.bind f = .ok b) :
    ∃ a, x = .ok a ∧ f a = .ok b := by
  cases x <;> simp_all

/-! ### be -/

@[simp] theorem be_length (k v : Nat) : (be k v).length = k := by
  induction k generalizing v with
  | zero => rfl
  | succ k ih => simp [be, ih]

theorem loadBE_be (k v : Nat) : loadBE (be k v) = v % 256 ^ k := by
  induction k generalizing v with
  | zero => simp [be, Nat.mod_one]
  | succ k ih =>
    rw [be, loadBE_append, ih]
    simp only [List.length_cons, List.length_nil, loadBE_cons, octet, loadBE_nil]
    have e : 256 ^ (k + 1) = 256 * 256 ^ k := by rw [Nat.pow_succ, Nat.mul_comm]
    rw [UInt8.toNat_ofNat', e, Nat.mod_mul]
    simp
    omega

theorem be_eq (k v : Nat) : be k v = storeBE k v :=
  loadBE_inj (by simp) (by rw [loadBE_be, loadBE_storeBE])

theorem loadBE_be_of_lt {k v : Nat} (h : v < 256 ^ k) : loadBE (be k v) = v := by
  rw [loadBE_be, Nat.mod_eq_of_lt h]

/-! ### Reading -/

theorem Cur.raw_append {o m : List UInt8} {r k : Nat} (ho : o.length = k) (hr : k ≤ r) :
    Cur.raw k ⟨o ++ m, r⟩ = .ok (o, ⟨m, r - k⟩) := by
  subst ho
  simp [Cur.raw, Nat.not_lt.mpr hr, rdN]

theorem Cur.num_append {o m : List UInt8} {r k : Nat} (ho : o.length = k) (hr : k ≤ r) :
    Cur.num k ⟨o ++ m, r⟩ = .ok (loadBE o, ⟨m, r - k⟩) := by
  simp [Cur.num, Cur.raw_append ho hr]

theorem Cur.num_be {v : Nat} {m : List UInt8} {r k : Nat} (hv : v < 256 ^ k) (hr : k ≤ r) :
    Cur.num k ⟨be k v ++ m, r⟩ = .ok (v, ⟨m, r - k⟩) := by
  rw [Cur.num_append (by simp) hr, loadBE_be_of_lt hv]

theorem Cur.num_octet {n : Nat} {m : List UInt8} {r : Nat} (hn : n < 256) (hr : 1 ≤ r) :
    Cur.num 1 ⟨octet n :: m, r⟩ = .ok (n, ⟨m, r - 1⟩) := by
  have : octet n :: m = [octet n] ++ m := rfl
  rw [this, Cur.num_append (k := 1) rfl hr]
  simp [loadBE_cons, octet, UInt8.toNat_ofNat', Nat.mod_eq_of_lt hn]

theorem part_length_num (p : Bool) (k v : Nat) : (part p (be k v)).length = if p then k else 0 := by
  cases p <;> simp [part]

theorem Cur.opt_part {p : Bool} {v n : Nat} {m : List UInt8} {r k : Nat} (hn : n = 256 ^ k)
    (hv : GoodNum p n v) (hr : (part p (be k v)).length ≤ r) :
    Cur.opt p k ⟨part p (be k v) ++ m, r⟩ = .ok (v, ⟨m, r - (part p (be k v)).length⟩) := by
  subst hn
  cases p
  · simp only [GoodNum] at hv; simp_all [Cur.opt, part]
  · simp only [GoodNum, if_true] at hv
    simp only [part, if_true, be_length] at hr
    simp [Cur.opt, part, Cur.num_be hv hr]

theorem IsV4.octets {a : Sockaddr} (h : IsV4 a) : addrOctets a = a.toOctets 4 ∧ (addrOctets a).length = 4 := by
  obtain ⟨n, hn, rfl⟩ := h
  simp [addrOctets, Sockaddr.toOctets, be_eq]

theorem IsV6.octets {a : Sockaddr} (h : IsV6 a) : addrOctets a = a.toOctets 16 ∧ (addrOctets a).length = 16 := by
  obtain ⟨n, hn, rfl⟩ := h
  simp [addrOctets, Sockaddr.toOctets, be_eq]

theorem Cur.v4_part {p : Bool} {a : Sockaddr} {m : List UInt8} {r : Nat}
    (h : if p then IsV4 a else a = .unspec) (hr : (part p (addrOctets a)).length ≤ r) :
    Cur.v4 p ⟨part p (addrOctets a) ++ m, r⟩ = .ok (a, ⟨m, r - (part p (addrOctets a)).length⟩) := by
  cases p
  · have h' : a = .unspec := by simpa using h
    simp [Cur.v4, part, h']
  · obtain ⟨n, hn, rfl⟩ := (by simpa using h : IsV4 a)
    simp only [part, if_true, addrOctets, be_length] at hr
    simp [Cur.v4, part, addrOctets, Cur.num_be (k := 4) (v := n) (by omega) hr]

theorem Cur.v6_part {p : Bool} {a : Sockaddr} {m : List UInt8} {r : Nat}
    (h : if p then IsV6 a else a = .unspec) (hr : (part p (addrOctets a)).length ≤ r) :
    Cur.v6 p ⟨part p (addrOctets a) ++ m, r⟩ = .ok (a, ⟨m, r - (part p (addrOctets a)).length⟩) := by
  cases p
  · have h' : a = .unspec := by simpa using h
    simp [Cur.v6, part, h']
  · obtain ⟨n, hn, rfl⟩ := (by simpa using h : IsV6 a)
    simp only [part, if_true, addrOctets, be_length] at hr
    simp [Cur.v6, part, addrOctets, Cur.num_be (k := 16) (v := n) (by omega) hr]

/-! ### Flags -/

theorem flag_eq (n i : Nat) : flag n (2 ^ i) = n.testBit i := by
  simp only [flag]
  cases h : n.testBit i
  · have : n &&& 2 ^ i = 0 := by
      apply Nat.eq_of_testBit_eq
      intro j
      simp only [Nat.testBit_and, Nat.testBit_two_pow, Nat.zero_testBit]
      by_cases e : i = j
      · subst e; simp [h]
      · simp [e]
    simp [this]
  · have : (n &&& 2 ^ i).testBit i = true := by simp [Nat.testBit_and, h]
    have : n &&& 2 ^ i ≠ 0 := by intro e; simp [e] at this
    simp [this]

theorem flag_1 (n : Nat) : flag n 1 = n.testBit 0 := flag_eq n 0
theorem flag_2 (n : Nat) : flag n 2 = n.testBit 1 := flag_eq n 1
theorem flag_4 (n : Nat) : flag n 4 = n.testBit 2 := flag_eq n 2
theorem flag_8 (n : Nat) : flag n 8 = n.testBit 3 := flag_eq n 3
theorem flag_16 (n : Nat) : flag n 16 = n.testBit 4 := flag_eq n 4
theorem flag_32 (n : Nat) : flag n 32 = n.testBit 5 := flag_eq n 5
theorem flag_64 (n : Nat) : flag n 64 = n.testBit 6 := flag_eq n 6

/-! ### Appending -/

/-- `f` appends exactly `o` when there is room. -/
def Puts (f : Msgb → Out Msgb) (o : List UInt8) : Prop :=
  ∀ b : Msgb, b.data.length + o.length ≤ b.cap → f b = .ok { b with data := b.data ++ o }

theorem Puts.put (o : List UInt8) : Puts (fun b => b.put o) o := by
  intro b h; simp [Msgb.put, h]

theorem Puts.num (k v : Nat) : Puts (fun b => b.num k v) (be k v) := by
  rw [be_eq]; exact Puts.put _

theorem Puts.done : Puts (fun b => .ok b) [] := by intro b _; simp

theorem Puts.bind {f g : Msgb → Out Msgb} {o o' : List UInt8} (hf : Puts f o) (hg : Puts g o') :
    Puts (fun b => (f b).bind g) (o ++ o') := by
  intro b h
  simp only [List.length_append] at h
  show (f b).bind g = _
  rw [hf b (by omega)]
  simp only [Out.bind_ok]
  rw [hg _ (by simp; omega)]
  simp

theorem Puts.opt (p : Bool) (k v : Nat) : Puts (fun b => b.opt p k v) (part p (be k v)) := by
  cases p
  · simpa [Msgb.opt, part] using Puts.done
  · simpa [Msgb.opt, part] using Puts.num k v

theorem Puts.v4 {p : Bool} {a : Sockaddr} (h : if p then IsV4 a else a = .unspec) :
    Puts (fun b => b.addr p Sockaddr.isInet 4 a) (part p (addrOctets a)) := by
  cases p
  · simpa [Msgb.addr, part] using Puts.done
  · have h' : IsV4 a := by simpa using h
    have := (IsV4.octets h').1
    obtain ⟨n, hn, rfl⟩ := h'
    simp only [Msgb.addr, Sockaddr.isInet, if_true, part, this]
    exact Puts.put _

theorem Puts.v6 {p : Bool} {a : Sockaddr} (h : if p then IsV6 a else a = .unspec) :
    Puts (fun b => b.addr p Sockaddr.isInet6 16 a) (part p (addrOctets a)) := by
  cases p
  · simpa [Msgb.addr, part] using Puts.done
  · have h' : IsV6 a := by simpa using h
    have := (IsV6.octets h').1
    obtain ⟨n, hn, rfl⟩ := h'
    simp only [Msgb.addr, Sockaddr.isInet6, if_true, part, this]
    exact Puts.put _

theorem Puts.agree (p : Bool) (o : List UInt8) : Puts (fun b => b.agree p p o) (part p o) := by
  cases p
  · simpa [Msgb.agree, part] using Puts.done
  · simpa [Msgb.agree, part] using Puts.put o

theorem Puts.congr {f : Msgb → Out Msgb} {o o' : List UInt8} (h : Puts f o) (e : o = o') : Puts f o' :=
  e ▸ h

/-! ### Bit fields -/

theorem bitsGet_eq {bits : List UInt8} {i : Nat} (h : i / 8 < bits.length) :
    bitsGet bits i = .ok (bitAt bits i) := by
  simp only [bitsGet, rd_ok h, Res.bind_ok', bitAt, List.getElem?_eq_getElem h, Option.map_some]
  rw [Nat.one_shiftLeft, flag_eq]
  rfl

theorem ohcParts_eq {desc : List UInt8} (h : desc.length = 2) : ohcParts desc = .ok (announces desc) := by
  have g (i : Nat) (hi : i < 16) : bitsGet desc i = .ok (bitAt desc i) := bitsGet_eq (by omega)
  simp only [ohcParts, g 0 (by omega), g 1 (by omega), g 2 (by omega), g 3 (by omega), g 4 (by omega),
    g 5 (by omega), g 6 (by omega), g 7 (by omega), Res.bind_ok']
  rfl

/-! ### Names -/

theorem labelsOf_ne_nil (s : List UInt8) : labelsOf s ≠ [] := by
  cases s with
  | nil => simp [labelsOf]
  | cons c s =>
    simp only [labelsOf]
    split
    · simp
    · split <;> simp

theorem apnLabels_eq (pre s : List UInt8) :
    apnLabels pre s = labelOctets ((pre ++ (labelsOf s).headD []) :: (labelsOf s).tail) := by
  induction s generalizing pre with
  | nil => simp [apnLabels, labelsOf, labelOctets, octet]
  | cons c s ih =>
    simp only [apnLabels, labelsOf]
    obtain ⟨l, ls, hl⟩ := List.exists_cons_of_ne_nil (labelsOf_ne_nil s)
    by_cases e : c = 46
    · rw [if_pos (show c = dot from e), if_pos e, ih]
      simp [hl, labelOctets, octet]
    · rw [if_neg (show ¬ c = dot from e), if_neg e, ih]
      simp [hl, labelOctets]

theorem apnLabels_nil (s : List UInt8) : apnLabels [] s = labelOctets (labelsOf s) := by
  rw [apnLabels_eq]
  obtain ⟨l, ls, hl⟩ := List.exists_cons_of_ne_nil (labelsOf_ne_nil s)
  simp [hl]

theorem dotted_labelsOf (s : List UInt8) : dotted (labelsOf s) = s := by
  induction s with
  | nil => rfl
  | cons c s ih =>
    obtain ⟨l, ls, hl⟩ := List.exists_cons_of_ne_nil (labelsOf_ne_nil s)
    simp only [labelsOf]
    split
    · next h => subst h; rw [hl] at ih ⊢; simp [dotted, ih]
    · rw [hl] at ih ⊢
      cases ls with
      | nil => simpa [dotted] using ih
      | cons m ms => simpa [dotted] using ih

theorem labelOctets_length (s : List UInt8) : (labelOctets (labelsOf s)).length = s.length + 1 := by
  induction s with
  | nil => rfl
  | cons c s ih =>
    obtain ⟨l, ls, hl⟩ := List.exists_cons_of_ne_nil (labelsOf_ne_nil s)
    simp only [labelsOf]
    split
    · simp only [labelOctets, List.flatMap_cons] at ih ⊢; simp [ih]
    · rw [hl] at ih ⊢
      simp only [labelOctets, List.flatMap_cons, List.length_append, List.length_cons] at ih ⊢
      omega

/-- Decoding length prefixed non-empty labels gives them separated by dots. -/
theorem apnToStr_labels (ls : List (List UInt8)) (h : ∀ l ∈ ls, l ≠ [] ∧ l.length < 256)
    (rest : List UInt8) :
    apnToStr (labelOctets ls ++ rest) (labelOctets ls).length = .ok (dotted ls) := by
  induction ls with
  | nil => unfold apnToStr; simp [labelOctets, dotted]
  | cons l ls ih =>
    obtain ⟨hne, hlt⟩ := h l (by simp)
    have ih := ih (fun x hx => h x (by simp [hx]))
    have hn : (octet l.length).toNat = l.length := by
      simp [octet, UInt8.toNat_ofNat', Nat.mod_eq_of_lt hlt]
    have hpos : 0 < l.length := List.length_pos_iff.mpr hne
    have hz : octet l.length ≠ 0 := by
      intro e; have := congrArg UInt8.toNat e; rw [hn] at this; simp at this; exact hne this
    have e1 : labelOctets (l :: ls) = octet l.length :: (l ++ labelOctets ls) := by
      simp [labelOctets]
    rw [apnToStr, e1]
    simp only [List.cons_append, rd_zero_cons, List.length_cons, List.length_append, hn]
    rw [if_neg (by omega), if_neg hz, if_neg (by omega)]
    have e2 : rdN (octet l.length :: (l ++ labelOctets ls ++ rest)) 1 l.length = .ok l := by
      rw [rdN_ok (by simp; omega)]
      simp [List.append_assoc]
    have e3 : (octet l.length :: (l ++ labelOctets ls ++ rest)).drop (l.length + 1)
        = labelOctets ls ++ rest := by
      simp [List.append_assoc]
    rw [e2, e3]
    simp only [Res.bind_ok']
    rw [show l.length + (labelOctets ls).length + 1 - (l.length + 1) = (labelOctets ls).length by omega, ih]
    simp only [Res.bind_ok']
    cases ls with
    | nil => simp [labelOctets, dotted]
    | cons m ms => simp [labelOctets, dotted, dot]

theorem cstr_of_noNul {s : List UInt8} (h : (0 : UInt8) ∉ s) : cstr s = s := by
  induction s with
  | nil => rfl
  | cons c s ih =>
    simp only [List.mem_cons, not_or] at h
    have e : cstr s = s := ih h.2
    simp only [cstr] at e
    have hc : c ≠ 0 := fun x => h.1 x.symm
    rw [cstr, List.takeWhile_cons_of_pos (by simpa using hc), e]

theorem mem_labelsOf_length {s l : List UInt8} (h : l ∈ labelsOf s) : l.length ≤ s.length := by
  induction s generalizing l with
  | nil => simp [labelsOf] at h; simp [h]
  | cons c s ih =>
    simp only [labelsOf] at h
    split at h
    · rcases List.mem_cons.mp h with rfl | h
      · simp
      · have := ih h; simp; omega
    · obtain ⟨m, ms, hm⟩ := List.exists_cons_of_ne_nil (labelsOf_ne_nil s)
      rw [hm] at h ih
      rcases List.mem_cons.mp h with rfl | h
      · have := ih (l := m) (by simp); simp; omega
      · have := ih (l := l) (by simp [h]); simp; omega

theorem decName_wire {s : List UInt8} (h : GoodName s) (rest : List UInt8) :
    decName ⟨labelOctets (labelsOf s) ++ rest, (labelOctets (labelsOf s)).length⟩ = .ok s := by
  obtain ⟨hl, hz, hg⟩ := h
  simp only [decName]
  have hlen := labelOctets_length s
  rw [if_neg (by omega)]
  have key : apnToStr (labelOctets (labelsOf s) ++ rest) (labelOctets (labelsOf s)).length = .ok s := by
    rcases hg with rfl | hg
    · simp [labelsOf, labelOctets, octet, apnToStr]
    · rw [apnToStr_labels _ (fun l m => ⟨hg l m, by have := mem_labelsOf_length m; omega⟩),
        dotted_labelsOf]
  rw [key]
  simp only [Res.bind_ok']
  rw [if_neg (by omega), cstr_of_noNul hz]

theorem Puts.name (s : List UInt8) : Puts (fun b => encName s b) (labelOctets (labelsOf s)) := by
  intro b h
  have hlen := labelOctets_length s
  simp only [encName, apnFromStr]
  rw [if_neg (by simp only [Msgb.tailroom]; omega)]
  simp only [apnLabels_nil]
  exact Puts.put _ b h

/-- What `osmo_apn_to_str()` writes fits in as many octets as it reads. -/
theorem apnToStr_length {p : List UInt8} {n : Nat} {s : List UInt8} (h : apnToStr p n = .ok s) :
    s.length ≤ n - 1 := by
  induction n using Nat.strongRecOn generalizing p s with
  | _ n ih =>
    rw [apnToStr] at h
    split at h
    · simp at h; subst h; simp
    · split at h
      · next l hl =>
        split at h
        · simp at h; subst h; simp
        · next hl0 =>
          split at h
          · simp at h
          · obtain ⟨lab, h1, h⟩ := Res.bind_eq_ok h
            obtain ⟨t, h2, h⟩ := Res.bind_eq_ok h
            have := ih _ (by omega) h2
            simp only [rdN] at h1
            split at h1
            · simp only [Res.ok.injEq] at h1 h
              subst h1 h
              simp only [List.length_append, List.length_take, List.length_drop]
              split <;> simp <;> omega
            · simp at h1
      · simp at h

end Verif
