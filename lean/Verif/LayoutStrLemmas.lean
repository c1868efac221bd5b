/- Lemmas: printing from memory does what printing from slots does (no property theorems here). -/
import Verif.SpecLayoutStr
import Verif.LayoutEnc

namespace Verif
open Spec

variable {A : Type}

/-- `y` does what `x` does, unless that is undefined. -/
def Does {α : Type} (x y : Res α) : Prop := x = .ub ∨ y = x

theorem Does.refl {α : Type} (x : Res α) : Does x x := .inr rfl

theorem Does.bind {α β : Type} {x y : Res α} {f g : α → Res β} (h : Does x y) (hf : ∀ a, x = .ok a → Does (f a) (g a)) :
    Does (x.bind f) (y.bind g) := by
  rcases h with h | h
  · left; rw [h]; rfl
  · subst h
    cases y with
    | ok a => exact hf a rfl
    | err e => exact .inr rfl
    | abort => exact .inr rfl
    | ub => exact .inl rfl
    | diverge => exact .inr rfl

theorem append_does {f g : StrFn} (h : ∀ buf, Does (f buf) (g buf)) (sb : StrBuf) : Does (sb.append f) (sb.append g) := by
  unfold StrBuf.append
  cases sb.buf with
  | none => exact (h none).bind fun a _ => .refl _
  | some w => exact (h _).bind fun a _ => .refl _

def PTab.list : PTab A → List (Place × PTy A)
  | .nil => []
  | .cons p ty r => (p, ty) :: r.list

/-- ... without what prints. -/
def bare (x : Place × PTy A) : Place × MTy A := (x.1, x.2.ty)

theorem tab_list : ∀ t : PTab A, t.tab.list = t.list.map bare
  | .nil => by simp [PTab.tab, MTab.list, PTab.list]
  | .cons p ty r => by simp [PTab.tab, MTab.list, PTab.list, bare, tab_list r]

theorem strEntries_list [DecidableEq A] (names : ValueStrs) : ∀ t : PTab A,
    t.strEntries names = t.list.map fun x => { place := x.1, how := x.2.howM names }
  | .nil => by simp [PTab.strEntries, PTab.list]
  | .cons p ty r => by simp [PTab.strEntries, PTab.list, strEntries_list names r]

theorem strSlotsOf_list (names : ValueStrs) : ∀ t : PTab A, strSlotsOf names t = t.list.map fun x => strSlotOf names x.1 x.2
  | .nil => by simp [strSlotsOf, PTab.list]
  | .cons p ty r => by simp [strSlotsOf, PTab.list, strSlotsOf_list names r]

theorem strSlotOf_tag (names : ValueStrs) (p : Place) (ty : PTy A) : (strSlotOf names p ty).tag = p.ti.tag := by
  cases ty <;> simp only [strSlotOf]
theorem strSlotOf_kind (names : ValueStrs) (p : Place) (ty : PTy A) : (strSlotOf names p ty).kind = p.kind := by
  cases ty <;> simp only [strSlotOf]

variable [DecidableEq A]

/-- Printing element `i` of a struct does what printing its value does. -/
def StrLaw (names : ValueStrs) (ty : PTy A) : Prop :=
  ∀ p m obj i v sb, obj + (Place.coding (A := A) p).elem i + byteSize ty.ty ≤ m.size → m.size < 2 ^ 32 →
    IsVal ty.ty (bytes m (obj + (Place.coding (A := A) p).elem i)) v →
    Does (strValue (strSlotOf names p ty) v sb) (strElemM { place := p, how := ty.howM names } obj m i sb)

theorem leaf_strLaw (names : ValueStrs) (l : Leaf A) (str) (hl : 0 < l.size) : StrLaw names (.leaf l str) := by
  intro p m obj i v sb h1 h2 hv
  simp only [PTy.ty] at h1 hv
  cases v with
  | node => simp only [IsVal] at hv
  | leaf v =>
    simp only [byteSize] at h1
    simp only [strValue, strSlotOf, strElemM, PTy.howM]
    cases str with
    | none => exact .refl _
    | some f =>
      simp only [Option.map_some]
      rw [membof_ok (by omega)]
      simp only [Res.bind_ok', load_ok hl h1 hv]
      exact .refl _

/-- One member. -/
theorem strElemsM_ok (names : ValueStrs) {L : List (Place × MTy A)} {S obj : Nat} {m : Mem A} (hf : ListFits L S)
    (hroom : obj + S ≤ m.size) (hsmall : m.size < 2 ^ 32) {x : Place × PTy A} (hx : bare x ∈ L) (law : StrLaw names x.2)
    {s : List (Val A)}
    (hs : ∀ i v, s[i]? = some v → i < x.1.kind.cap → IsVal x.2.ty (from_ (bytes m obj) (x.1.ofs + i * x.1.pitch)) v)
    (hcap : s.length ≤ x.1.kind.cap ∨ ∃ max mand, x.1.kind = .multi max mand) :
    ∀ (vs : List (Val A)) (i : Nat) (sb : StrBuf), vs = s.drop i →
    Does (strValues (strSlotOf names x.1 x.2) vs i sb) (strElemsM { place := x.1, how := x.2.howM names } obj m vs.length i sb) := by
  intro vs
  induction vs with
  | nil => intro i sb _; exact .refl _
  | cons v vs ih =>
    intro i sb hd
    have hvi : s[i]? = some v := by
      have := congrArg (·[0]?) hd
      simpa using this.symm
    have hil : i < s.length := by
      rcases Nat.lt_or_ge i s.length with h | h
      · exact h
      · rw [List.getElem?_eq_none h] at hvi; cases hvi
    have hd' : vs = s.drop (i + 1) := by
      have := congrArg List.tail hd
      simpa using this
    simp only [List.length_cons, strValues, strElemsM, strSlotOf_kind]
    by_cases hex : x.1.kind.exceeds i = true
    · rw [if_pos hex, if_pos hex]; exact .refl _
    · rw [if_neg hex, if_neg hex]
      have hi : i < x.1.kind.cap := by
        rcases hcap with h | ⟨max, mand, h⟩
        · omega
        · rw [h] at hex ⊢
          simp only [Kind.exceeds, decide_eq_true_eq] at hex
          simp only [Kind.cap]; omega
      have hei := elem_inside hf hx hi
      simp only [bare] at hei
      have hel : (Place.coding (A := A) x.1).elem i = x.1.ofs + i * x.1.pitch := by
        unfold MCoding.elem
        have hpos := tyFits_pos (hf.fits _ hx).2
        simp only [bare] at hpos
        simp only [Place.coding]
        exact Nat.mod_eq_of_lt (by omega)
      have hv := hs i v hvi hi
      rw [from_bytes, ← hel] at hv
      refine (Does.refl _).bind fun sb _ => ?_
      refine (law x.1 m obj i v sb (by rw [hel]; omega) hsmall hv).bind fun sb _ => ?_
      exact ih (i + 1) sb hd'

omit [DecidableEq A] in
/-- The number of values of a member. -/
theorem filledM_ok {L : List (Place × MTy A)} {S obj : Nat} {m : Mem A} (hf : ListFits L S)
    (hroom : obj + S ≤ m.size) {x : Place × MTy A} (hx : x ∈ L) {s} (hs : EntOk x (bytes m obj) s) {vs}
    (hvs : membVals x.1.kind s = some vs) :
    vs = s ∧ (vs.length ≤ x.1.kind.cap ∨ ∃ max mand, x.1.kind = .multi max mand) ∧
      ∃ n, (Place.coding (A := A) x.1).filled m obj = .ok n ∧ n.getD 1 = vs.length := by
  have hin := hf.inside x hx
  unfold MCoding.filled
  simp only [Place.coding]
  cases hk : x.1.kind with
  | mand =>
    rw [hk] at hvs
    have hl := (hs.2.1 hk).1
    match s, hl with
    | [], _ => cases hvs
    | [v], _ => cases hvs; exact ⟨rfl, .inl (by simp [Kind.cap]), none, rfl, rfl⟩
  | opt =>
    rw [hk] at hvs
    have hl := (hs.1 hk).2
    have h1 := hin _ (flag_in hk)
    simp only at h1
    have h2 := (hs.1 hk).1
    rw [from_bytes] at h2
    simp only
    rw [membof_ok (by omega)]
    simp only [Res.bind_ok']
    rw [flag_ok (by omega) h2]
    match s, hl with
    | [], _ => cases hvs; exact ⟨rfl, .inl (by simp), _, rfl, rfl⟩
    | [v], _ => cases hvs; exact ⟨rfl, .inl (by simp [Kind.cap]), _, rfl, rfl⟩
  | multi max mand =>
    rw [hk] at hvs
    cases hvs
    have h1 := hin _ (count_in hk)
    simp only at h1
    have h2 := hs.2.2.1 _ _ hk
    rw [from_bytes] at h2
    simp only
    rw [membof_ok (by omega)]
    simp only [Res.bind_ok']
    rw [count_ok (by omega) h2]
    exact ⟨trivial, .inr ⟨max, mand, rfl⟩, _, rfl, rfl⟩

theorem strTableM_ok (names : ValueStrs) {L : List (Place × MTy A)} {S obj : Nat} {m : Mem A} (hf : ListFits L S)
    (hroom : obj + S ≤ m.size) (hsmall : m.size < 2 ^ 32) :
    ∀ (L2 : List (Place × PTy A)) (s2 : Struct A), All2 (fun x s => EntOk x (bytes m obj) s) (L2.map bare) s2 →
    (∀ x ∈ L2, bare x ∈ L ∧ StrLaw names x.2) → ∀ sb,
    Does (strTable names (L2.map fun x => strSlotOf names x.1 x.2) s2 sb)
      (strTableM names obj m (L2.map fun x => { place := x.1, how := x.2.howM names }) sb) := by
  intro L2
  induction L2 with
  | nil => intro s2 h _ sb; cases h; exact .refl _
  | cons x L2 ih =>
    intro s2 h hm sb
    cases h with
    | @cons _ s _ s2 hx h2 =>
    obtain ⟨hxL, hlaw⟩ := hm x List.mem_cons_self
    have ih := ih s2 h2 fun y hy => hm y (List.mem_cons_of_mem _ hy)
    simp only [List.map_cons, strTable, strTableM, strSlotOf_kind, strSlotOf_tag]
    cases hmv : membVals x.1.kind s with
    | none => exact .inl rfl
    | some vs =>
      obtain ⟨rfl, hcap, n, hn, hnl⟩ := filledM_ok hf hroom hxL hx hmv
      simp only [bare] at hn
      rw [hn]
      simp only [Res.bind_ok', hnl]
      cases vs with
      | nil => simpa using ih sb
      | cons v vs =>
        simp only [List.length_cons, Nat.add_one_ne_zero, if_false]
        refine (Does.refl _).bind fun sb _ => ?_
        refine (Does.refl _).bind fun sb _ => ?_
        refine (strElemsM_ok names hf hroom hsmall hxL hlaw hx.2.2.2 hcap (v :: vs) 0 sb rfl).bind fun r _ => ?_
        obtain ⟨sb, stop⟩ := r
        simp only
        split
        · exact .refl _
        · exact (Does.refl _).bind fun sb _ => ih sb

theorem gtlvsToStrM_ok (names : ValueStrs) {t : PTab A} {S obj : Nat} {m : Mem A} (hf : ListFits t.tab.list S) (hS : 0 < S)
    (hroom : obj + S ≤ m.size) (hsmall : m.size < 2 ^ 32) (law : ∀ x ∈ t.list, StrLaw names x.2) {ss : Struct A}
    (h : IsStruct t.tab (bytes m obj) ss) (buf : CBuf) :
    Does (gtlvsToStr names ss (some (strSlotsOf names t)) buf) (gtlvsToStrM names obj m (some (t.strEntries names)) buf) := by
  unfold gtlvsToStrM gtlvsToStr
  rw [membof_ok (by omega)]
  simp only [Res.bind_ok']
  rw [strEntries_list, strSlotsOf_list]
  have h2 := (isStruct_list _ _ _).1 h
  rw [tab_list] at h2
  exact strTableM_ok names hf hroom hsmall t.list ss h2
    (fun x hx => ⟨by rw [tab_list]; exact List.mem_map_of_mem hx, law x hx⟩) _

mutual
theorem ty_strLaw (names : ValueStrs) : ∀ ty : PTy A, TyFits ty.ty → StrLaw names ty
  | .leaf l str, h => leaf_strLaw names l str (by simpa only [PTy.ty, TyFits] using h)
  | .nested S cfg o t, hf => by
    simp only [PTy.ty, TyFits] at hf
    intro p m obj i v sb h1 h2 hv
    cases v with
    | leaf => simp only [PTy.ty, IsVal] at hv
    | node ss =>
      simp only [PTy.ty, byteSize, IsVal, strValue, strElemM, strSlotOf, PTy.howM] at *
      have hF : Fits t.tab S := ⟨hf.1, hf.2.1, hf.2.2.1, hf.2.2.2⟩
      refine (Does.refl _).bind fun sb _ => ?_
      refine (append_does (fun buf => ?_) sb).bind fun sb _ => .refl _
      rw [Nat.mod_eq_of_lt (by omega)]
      exact gtlvsToStrM_ok names hF.list hf.1 h1 h2 (tab_strLaw names t hf.2.2.2) hv buf
theorem tab_strLaw (names : ValueStrs) : ∀ t : PTab A, TabFits t.tab → ∀ x ∈ t.list, StrLaw names x.2
  | .nil, _, x, hx => by simp [PTab.list] at hx
  | .cons p ty r, hf, x, hx => by
    simp only [PTab.tab, TabFits] at hf
    rcases List.mem_cons.1 hx with rfl | hx'
    · exact ty_strLaw names ty hf.2.1
    · exact tab_strLaw names r hf.2.2 x hx'
end

end Verif
