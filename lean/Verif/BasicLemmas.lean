/- Helper lemmas about octets, loads/stores and outcomes (no property theorems here). -/
import Verif.Basic

namespace Verif

@[simp] theorem Res.bind_ok {α β} (a : α) (f : α → Res β) : (Res.ok a >>= f) = f a := rfl
@[simp] theorem Res.bind_err {α β} (e) (f : α → Res β) : ((Res.err e : Res α) >>= f) = .err e := rfl
@[simp] theorem Res.bind_ub {α β} (f : α → Res β) : ((Res.ub : Res α) >>= f) = .ub := rfl
@[simp] theorem Res.bind_abort {α β} (f : α → Res β) : ((Res.abort : Res α) >>= f) = .abort := rfl
@[simp] theorem Res.bind_diverge {α β} (f : α → Res β) : ((Res.diverge : Res α) >>= f) = .diverge := rfl
@[simp] theorem Res.bind_ok' {α β} (a : α) (f : α → Res β) : Res.bind (.ok a) f = f a := rfl
@[simp] theorem Res.bind_err' {α β} (e) (f : α → Res β) : Res.bind (.err e) f = .err e := rfl
@[simp] theorem Res.bind_ub' {α β} (f : α → Res β) : Res.bind .ub f = .ub := rfl
@[simp] theorem Res.bind_abort' {α β} (f : α → Res β) : Res.bind .abort f = .abort := rfl
@[simp] theorem Res.bind_diverge' {α β} (f : α → Res β) : Res.bind .diverge f = .diverge := rfl
@[simp] theorem Res.pure_eq {α} (a : α) : (pure a : Res α) = .ok a := rfl

@[simp] theorem Out.bind_ok {σ} (s : σ) (f : σ → Out σ) : Out.bind (.ok s) f = f s := rfl
@[simp] theorem Out.bind_err {σ} (e) (s : σ) (f : σ → Out σ) : Out.bind (.err e s) f = .err e s := rfl
@[simp] theorem Out.bind_abort {σ} (f : σ → Out σ) : Out.bind .abort f = .abort := rfl
@[simp] theorem Out.bind_ub {σ} (f : σ → Out σ) : Out.bind .ub f = .ub := rfl
@[simp] theorem Out.bind_diverge {σ} (f : σ → Out σ) : Out.bind .diverge f = .diverge := rfl

@[simp] theorem storeBE_length (n v : Nat) : (storeBE n v).length = n := by
  induction n with
  | zero => rfl
  | succ n ih => simp [storeBE, ih]

theorem loadBE_foldl (bs : List UInt8) (a : Nat) :
    bs.foldl (fun a b => a * 256 + b.toNat) a = a * 256 ^ bs.length + loadBE bs := by
  induction bs generalizing a with
  | nil => simp [loadBE]
  | cons b bs ih =>
    simp only [List.foldl_cons, loadBE, List.length_cons]
    rw [ih, ih (0 * 256 + b.toNat)]
    simp [Nat.pow_succ, Nat.add_mul, Nat.mul_assoc, Nat.mul_comm 256, Nat.add_assoc]

theorem loadBE_cons (b : UInt8) (bs : List UInt8) :
    loadBE (b :: bs) = b.toNat * 256 ^ bs.length + loadBE bs := by
  have := loadBE_foldl bs (0 * 256 + b.toNat)
  simpa [loadBE] using this

@[simp] theorem loadBE_nil : loadBE [] = 0 := rfl

theorem loadBE_append (a b : List UInt8) :
    loadBE (a ++ b) = loadBE a * 256 ^ b.length + loadBE b := by
  induction a with
  | nil => simp
  | cons x a ih =>
    simp [loadBE_cons, ih, Nat.pow_add, Nat.add_mul, Nat.mul_assoc, Nat.add_assoc]

theorem loadBE_lt (bs : List UInt8) : loadBE bs < 256 ^ bs.length := by
  induction bs with
  | nil => simp
  | cons b bs ih =>
    rw [loadBE_cons, List.length_cons, Nat.pow_succ]
    have hb : b.toNat < 256 := b.toNat_lt
    have : (b.toNat + 1) * 256 ^ bs.length ≤ 256 * 256 ^ bs.length :=
      Nat.mul_le_mul_right _ hb
    rw [Nat.add_mul] at this
    omega

theorem loadBE_storeBE (n v : Nat) : loadBE (storeBE n v) = v % 256 ^ n := by
  induction n with
  | zero => simp [storeBE, Nat.mod_one]
  | succ n ih =>
    rw [storeBE, loadBE_cons, ih, storeBE_length, UInt8.toNat_ofNat']
    have e : 256 ^ (n + 1) = 256 ^ n * 256 := Nat.pow_succ ..
    rw [e, Nat.mod_mul (x := v), show (2 : Nat) ^ 8 = 256 from rfl, Nat.add_comm, Nat.mul_comm]

theorem loadBE_storeBE_of_lt {n v : Nat} (h : v < 256 ^ n) : loadBE (storeBE n v) = v := by
  rw [loadBE_storeBE, Nat.mod_eq_of_lt h]

theorem loadBE_inj {a b : List UInt8} (hl : a.length = b.length) (h : loadBE a = loadBE b) :
    a = b := by
  induction a generalizing b with
  | nil => cases b with
    | nil => rfl
    | cons => simp at hl
  | cons x a ih =>
    cases b with
    | nil => simp at hl
    | cons y b =>
      simp only [List.length_cons, Nat.add_right_cancel_iff] at hl
      rw [loadBE_cons, loadBE_cons, hl] at h
      have ha := loadBE_lt a
      have hb := loadBE_lt b
      rw [hl] at ha
      have hp : 0 < 256 ^ b.length := Nat.pow_pos (by omega)
      have hx : x.toNat = y.toNat := by
        have h1 := congrArg (· / 256 ^ b.length) h
        simpa [Nat.mul_comm _ (256 ^ b.length), Nat.mul_add_div hp,
          Nat.div_eq_of_lt ha, Nat.div_eq_of_lt hb] using h1
      rw [hx] at h
      rw [ih hl (by omega), UInt8.toNat_inj.mp hx]

theorem storeBE_loadBE (bs : List UInt8) : storeBE bs.length (loadBE bs) = bs :=
  loadBE_inj (by simp) (loadBE_storeBE_of_lt (loadBE_lt bs))

theorem storeBE_loadBE' {n : Nat} {bs : List UInt8} (h : bs.length = n) :
    storeBE n (loadBE bs) = bs := by subst h; exact storeBE_loadBE bs

theorem storeBE_mod (n v : Nat) : storeBE n (v % 256 ^ n) = storeBE n v :=
  loadBE_inj (by simp) (by simp [loadBE_storeBE])

theorem storeBE_inj {n v w : Nat} (hv : v < 256 ^ n) (hw : w < 256 ^ n)
    (h : storeBE n v = storeBE n w) : v = w := by
  have := congrArg loadBE h
  rwa [loadBE_storeBE_of_lt hv, loadBE_storeBE_of_lt hw] at this

theorem rdN_ok {p : List UInt8} {i n : Nat} (h : i + n ≤ p.length) :
    rdN p i n = .ok ((p.drop i).take n) := by simp [rdN, h]

theorem rd_ok {p : List UInt8} {i : Nat} (h : i < p.length) : rd p i = .ok p[i] := by
  simp [rd, List.getElem?_eq_getElem h]

@[simp] theorem rd_zero_cons (b : UInt8) (bs : List UInt8) : rd (b :: bs) 0 = .ok b := rfl

@[simp] theorem rd_succ_cons (b : UInt8) (bs : List UInt8) (i : Nat) :
    rd (b :: bs) (i + 1) = rd bs i := rfl

/-- Reading `n` octets of a store of `n` octets that starts at offset `i`. -/
theorem rdN_mid {a b c : List UInt8} : rdN (a ++ b ++ c) a.length b.length = .ok b := by
  rw [rdN_ok (by simp)]
  simp [List.append_assoc]

/-- Two lists of equal length whose elements are related pairwise. -/
inductive All2 {α : Type u} {β : Type v} (R : α → β → Prop) : List α → List β → Prop where
  | nil : All2 R [] []
  | cons {a b l l'} : R a b → All2 R l l' → All2 R (a :: l) (b :: l')

theorem All2.imp {α β} {R R' : α → β → Prop} (h : ∀ a b, R a b → R' a b) {l l'} (x : All2 R l l') :
    All2 R' l l' := by
  induction x with
  | nil => exact .nil
  | cons a _ ih => exact .cons (h _ _ a) ih

theorem All2.length {α β} {R : α → β → Prop} {l l'} (x : All2 R l l') : l.length = l'.length := by
  induction x with
  | nil => rfl
  | cons _ _ ih => simp [ih]

end Verif
