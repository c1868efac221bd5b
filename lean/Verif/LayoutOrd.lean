/- Lemmas: decoding to memory in order does what decoding to slots does (no property theorems here). -/
import Verif.LayoutDec

namespace Verif
open Spec

variable {A : Type} [DecidableEq A]

theorem findLaterM_ok (ti : TagInst) : ∀ L : List (Place × MTy A),
    (findLaterM ti (L.map ent) = none ∧ findLater ti (L.map slo) = none) ∨
    ∃ K x L', L = K ++ x :: L' ∧ findLaterM ti (L.map ent) = some (ent x, L'.map ent) ∧
      findLater ti (L.map slo) = some (K.length, slo x, L'.map slo) := by
  intro L
  induction L with
  | nil => exact .inl ⟨rfl, rfl⟩
  | cons y L ih =>
    simp only [List.map_cons, findLaterM, findLater, ent, slo, entry_ti, slotOf_ti]
    by_cases hc : tagInstCmp (some ti) (some y.1.ti) = 0
    · right
      rw [if_pos hc, if_pos hc]
      exact ⟨[], y, L, rfl, rfl, rfl⟩
    · rw [if_neg hc, if_neg hc]
      rcases ih with ⟨h1, h2⟩ | ⟨K, x, L', rfl, h1, h2⟩
      · left
        rw [h1, h2]
        exact ⟨rfl, rfl⟩
      · right
        refine ⟨y :: K, x, L', rfl, h1, ?_⟩
        rw [h2]
        rfl

/-- No values. -/
abbrev nones (L : List (Place × MTy A)) : Struct A := L.map fun _ => []

omit [DecidableEq A] in
theorem nones_append (K L : List (Place × MTy A)) (x) : nones (K ++ x :: L) = List.replicate K.length [] ++ [] :: nones L := by
  simp [nones, List.map_const']

omit [DecidableEq A] in
theorem here_entOk {L1 L2 : List (Place × MTy A)} {x} {S obj : Nat} {m : Mem A} {s1 s s2}
    (h : Here (L1 ++ x :: L2) S obj m (s1 ++ s :: s2)) (hl : L1.length = s1.length) : EntOk x (bytes m obj) s := by
  refine (All2.get h.inv (i := L1.length) (by simp) ?_).1
  rw [hl]; simp

omit [DecidableEq A] in
/-- Clearing the presence flag of a member without a value. -/
theorem clear_ok {L1 L2 : List (Place × MTy A)} {x} {S obj : Nat} {m : Mem A} {s1 s2}
    (h : Here (L1 ++ x :: L2) S obj m (s1 ++ [] :: s2)) (hl : L1.length = s1.length) (hk : x.1.kind = .opt) :
    ∃ m', m.setFlag (obj + x.1.flagOfs) false = .ok m' ∧ OnlyIn (obj, S) m m' ∧ Here (L1 ++ x :: L2) S obj m' (s1 ++ [] :: s2) := by
  have hx : x ∈ L1 ++ x :: L2 := by simp
  have hroom := h.room
  have hin := h.fits.inside x hx _ (flag_in hk)
  simp only at hin
  have hold : EntOk x (bytes m obj) [] ∧ EntFree x (bytes m obj) [] := by
    refine All2.get h.inv (i := L1.length) (by simp) ?_
    rw [hl]; simp
  obtain ⟨m', e, ho, hf⟩ := setFlag_ok (m := m) (a := obj + x.1.flagOfs) false (by omega)
  have hsame : ∀ j, ¬ InRange j (x.1.flagOfs, 1) → bytes m obj j = bytes m' obj j := by
    intro j hj
    simp only [bytes]
    refine (ho.2 _ ?_).symm
    simp only [InRange] at hj ⊢
    omega
  refine ⟨m', e, OnlyIn.mono ho (by simp only; omega) (by simp only; omega), ?_⟩
  refine ⟨by rw [ho.1]; exact hroom, by rw [ho.1]; exact h.small, h.fits, Laid.update h.fits hl h.inv ?_ ⟨⟨?_, ?_, ?_, ?_⟩, ?_⟩⟩
  · exact fun j hj => hsame j (hj _ (flag_in hk))
  · intro _
    refine ⟨?_, by simp⟩
    rw [from_bytes]; simpa using hf
  · intro h'; rw [hk] at h'; cases h'
  · intro _ _ h'; rw [hk] at h'; cases h'
  · simp
  · intro i h1 h2
    refine allZero_congr (fun k hk' => ?_) (hold.2 i h1 h2)
    exact hsame _ ((mark_apart h.fits hx h2 hk').1 hk)

theorem ordTargetM_ok {L1 L2 : List (Place × MTy A)} {x} {S obj : Nat} {m : Mem A} {done : List (List (Val A))} {s}
    (h : Here (L1 ++ x :: L2) S obj m (done.reverse ++ s :: nones L2)) (hl : L1.length = done.length)
    (hs : s.length < x.1.kind.cap ∨ ∃ max mand, x.1.kind = .multi max mand) (ti : TagInst) :
    (ordTargetM m obj ti (ent x) (L2.map ent) = .err .ENOTSUP ∧
      ordTarget { c := slo x, s := s, cs := L2.map slo, done := done } ti = .err .ENOTSUP) ∨
    ∃ K1 y K2 s' done', L1 ++ x :: L2 = K1 ++ y :: K2 ∧
      ordTargetM m obj ti (ent x) (L2.map ent) = .ok (ent y, K2.map ent, s'.length) ∧
      ordTarget { c := slo x, s := s, cs := L2.map slo, done := done } ti =
        .ok { c := slo y, s := s', cs := K2.map slo, done := done' } ∧
      done.reverse ++ s :: nones L2 = done'.reverse ++ s' :: nones K2 ∧ K1.length = done'.length ∧ s'.length < y.1.kind.cap := by
  have hx : x ∈ L1 ++ x :: L2 := by simp
  have hok := here_entOk h (by simpa using hl)
  unfold ordTargetM ordTarget
  rw [next_ok h hx hok]
  simp only [ent, slo, entry_kind, slotOf_kind, Res.bind_ok']
  have same : (h' : s.length < x.1.kind.cap) → ∃ K1 y K2 s' done', L1 ++ x :: L2 = K1 ++ y :: K2 ∧
      (Res.ok (ent x, L2.map ent, s.length) : Res _) = .ok (ent y, K2.map ent, s'.length) ∧
      (Res.ok { c := slo x, s := s, cs := L2.map slo, done := done } : Res (OrdPos A)) =
        .ok { c := slo y, s := s', cs := K2.map slo, done := done' } ∧
      done.reverse ++ s :: nones L2 = done'.reverse ++ s' :: nones K2 ∧ K1.length = done'.length ∧ s'.length < y.1.kind.cap :=
    fun h' => ⟨L1, x, L2, s, done, rfl, rfl, rfl, rfl, hl, h'⟩
  cases hk : x.1.kind with
  | mand =>
    right
    have hs' : s.length < x.1.kind.cap := by
      rcases hs with h1 | ⟨_, _, h1⟩
      · exact h1
      · rw [hk] at h1; cases h1
    have : s = [] := List.eq_nil_of_length_eq_zero (by rw [hk] at hs'; simp only [Kind.cap] at hs'; omega)
    have := same hs'
    simp only [‹s = []›, List.length_nil] at this ⊢
    exact this
  | opt =>
    right
    have hs' : s.length < x.1.kind.cap := by
      rcases hs with h1 | ⟨_, _, h1⟩
      · exact h1
      · rw [hk] at h1; cases h1
    have : s = [] := List.eq_nil_of_length_eq_zero (by rw [hk] at hs'; simp only [Kind.cap] at hs'; omega)
    have := same hs'
    simp only [‹s = []›, List.length_nil] at this ⊢
    exact this
  | multi max mand =>
    simp only
    by_cases hm : s.length ≥ max
    · rw [if_pos hm, if_pos hm]
      rcases findLaterM_ok ti L2 with ⟨h1, h2⟩ | ⟨K, y, K2, rfl, h1, h2⟩
      · left
        rw [h1, h2]
        exact ⟨rfl, rfl⟩
      · right
        have hy : y ∈ L1 ++ x :: (K ++ y :: K2) := by simp
        have e : done.reverse ++ s :: nones (K ++ y :: K2) =
            (List.replicate K.length [] ++ s :: done).reverse ++ [] :: nones K2 := by
          rw [nones_append]; simp
        have hL : L1 ++ x :: (K ++ y :: K2) = (L1 ++ x :: K) ++ y :: K2 := by simp
        have h' := h
        rw [e, hL] at h'
        have hoky := here_entOk h' (by simp; omega)
        simp only [ent, slo] at h1 h2
        rw [h1, h2]
        simp only
        have hyc : 0 < y.1.kind.cap := cap_pos (h.fits.fits y hy)
        have f1 := filled_ok h' (x := y) (by simp) hoky
        have f2 := next_len h' (x := y) (by simp) hoky (by simpa using hyc)
        simp only [ent] at f2
        rw [f1, f2]
        refine ⟨L1 ++ x :: K, y, K2, [], _, hL, rfl, rfl, e, by simp; omega, by simpa using hyc⟩
    · right
      rw [if_neg hm, if_neg hm]
      exact same (by rw [hk]; simp only [Kind.cap]; omega)

omit [DecidableEq A] in
theorem Agrees.step {β : Type} {r : Range} {m m1 : Mem A} {Post : Mem A → β → Prop} {o : Out (Mem A)} {x : Res β}
    (h : Agrees r m1 Post o x) (ho : OnlyIn r m m1) : Agrees r m Post o x := by
  cases x with
  | ok v =>
    obtain ⟨m', e, h1, h2⟩ := h
    exact ⟨m', e, OnlyIn.trans ho h1, h2⟩
  | err e =>
    obtain ⟨m', e, h1⟩ := h
    exact ⟨m', e, OnlyIn.trans ho h1⟩
  | abort => exact h
  | ub => exact h
  | diverge => exact h

theorem orderedM_loops {L : List (Place × MTy A)} {S obj : Nat} (law : ∀ x ∈ L, TyLaw x.2) : ∀ fuel : Nat,
    (∀ (L1 L2 : List (Place × MTy A)) (done : List (List (Val A))) (g : Load) (m : Mem A), L = L1 ++ L2 →
      L1.length = done.length → Here L S obj m (done.reverse ++ nones L2) →
      Agrees (obj, S) m (fun m' ss => Here L S obj m' ss) (decodeOuterM obj fuel (L2.map ent) g m)
        (decodeOrderedOuter fuel (L2.map slo) done g)) ∧
    (∀ (L1 L2 : List (Place × MTy A)) (x) (s : List (Val A)) (done : List (List (Val A))) (g : Load) (m : Mem A),
      L = L1 ++ x :: L2 → L1.length = done.length → Here L S obj m (done.reverse ++ s :: nones L2) →
      (s.length < x.1.kind.cap ∨ ∃ max mand, x.1.kind = .multi max mand) →
      Agrees (obj, S) m (fun m' ss => Here L S obj m' ss) (decodeInnerM obj fuel (ent x) (L2.map ent) g m)
        (decodeOrderedInner fuel { c := slo x, s := s, cs := L2.map slo, done := done } g)) := by
  intro fuel
  induction fuel with
  | zero => exact ⟨fun _ _ _ _ _ _ _ _ => rfl, fun _ _ _ _ _ _ _ _ _ _ _ => rfl⟩
  | succ fuel ih =>
    refine ⟨?_, ?_⟩
    · intro L1 L2 done g m hL hl h
      cases L2 with
      | nil =>
        simp only [List.map_nil, decodeOuterM, decodeOrderedOuter]
        refine ⟨m, rfl, OnlyIn.refl _ _, ?_⟩
        simpa [nones] using h
      | cons x L2 =>
        subst hL
        have hx : x ∈ L1 ++ x :: L2 := by simp
        have hok : EntOk x (bytes m obj) [] := here_entOk (s1 := done.reverse) (s2 := nones L2) h (by simpa using hl)
        have hnext : ∀ m1, Here (L1 ++ x :: L2) S obj m1 (done.reverse ++ nones (x :: L2)) → OnlyIn (obj, S) m m1 →
            Agrees (obj, S) m (fun m' ss => Here (L1 ++ x :: L2) S obj m' ss) (decodeOuterM obj fuel (L2.map ent) g m1)
            (decodeOrderedOuter fuel (L2.map slo) ([] :: done) g) := by
          intro m1 h1 ho
          refine Agrees.step (ih.1 (L1 ++ [x]) L2 ([] :: done) g m1 (by simp) (by simp [hl]) ?_) ho
          simpa [nones] using h1
        simp only [List.map_cons, decodeOuterM, decodeOrderedOuter]
        rw [filled_ok h hx hok]
        simp only [Res.out, ent, slo, entry_ti, slotOf_ti, entry_kind, slotOf_kind, entry_flagOfs]
        cases hg : nextByTagInst g x.1.ti with
        | ok g' =>
          exact ih.2 L1 L2 x [] done g' m rfl hl h (.inl (by simpa using cap_pos (h.fits.fits x hx)))
        | err e g' =>
          by_cases he : e = .ENOENT
          · subst he
            simp only
            cases hk : x.1.kind with
            | mand => exact ⟨m, rfl, OnlyIn.refl _ _⟩
            | opt =>
              obtain ⟨m1, e1, ho, h1⟩ := clear_ok (s1 := done.reverse) (s2 := nones L2) h (by simpa using hl) hk
              simp only
              rw [e1]
              exact hnext m1 h1 ho
            | multi max mand =>
              simp only [List.length_nil, Option.getD_some]
              split
              · exact ⟨m, rfl, OnlyIn.refl _ _⟩
              · exact hnext m h (OnlyIn.refl _ _)
          · cases e <;> first | exact absurd rfl he | exact ⟨m, rfl, OnlyIn.refl _ _⟩
        | abort => rfl
        | ub => rfl
        | diverge => rfl
    · intro L1 L2 x s done g m hL hl h hs
      subst hL
      simp only [decodeInnerM, decodeOrderedInner]
      rcases ordTargetM_ok h hl hs g.ti with ⟨h1, h2⟩ | ⟨K1, y, K2, s', done', hK, h1, h2, hss, hl', hc⟩
      · rw [h1, h2]
        exact ⟨m, rfl, OnlyIn.refl _ _⟩
      · rw [h1, h2]
        rw [hK, hss] at h
        rw [hK] at law ih ⊢
        clear hs h1 h2
        simp only [Res.out, Res.bind_ok', ent, slo, entry_dec, slotOf_dec, entry_kind, slotOf_kind]
        have hput := put_ok h (by simpa using hl') hc (law y (by simp)) g.valueMem g.len
        cases hd : y.2.decV g.valueMem g.len with
        | ok v =>
          rw [hd] at hput
          obtain ⟨m1, m2, e1, e2, ho, h2⟩ := hput
          simp only [ent] at e1 e2
          rw [e1]
          simp only [Res.bind_ok', storeVal, if_pos hc]
          rw [e2]
          simp only
          have hnext : Agrees (obj, S) m (fun m' ss => Here (K1 ++ y :: K2) S obj m' ss) (decodeOuterM obj fuel (K2.map ent) g m2)
              (decodeOrderedOuter fuel (K2.map slo) ((s' ++ [v]) :: done') g) := by
            refine Agrees.step (ih.1 (K1 ++ [y]) K2 _ g m2 (by simp) (by simp [hl']) ?_) ho
            simpa using h2
          cases hk : y.1.kind with
          | mand => exact hnext
          | opt => exact hnext
          | multi max mand =>
            simp only
            cases hp : peekTag g with
            | ok ti =>
              simp only
              split
              · exact hnext
              · cases hg : loadNext g with
                | ok g' =>
                  exact Agrees.step (ih.2 K1 K2 y (s' ++ [v]) done' g' m2 rfl hl' h2 (.inr ⟨max, mand, hk⟩)) ho
                | err e g' => exact ⟨m2, rfl, ho⟩
                | abort => rfl
                | ub => rfl
                | diverge => rfl
            | err e => exact hnext
            | abort => rfl
            | ub => rfl
            | diverge => rfl
        | err e =>
          rw [hd] at hput
          obtain ⟨m1, e1, ho⟩ := hput
          simp only [ent] at e1
          rw [e1]
          exact ⟨m1, rfl, ho⟩
        | abort => rw [hd] at hput; simp only [ent] at hput; rw [hput]; rfl
        | ub => rw [hd] at hput; simp only [ent] at hput; rw [hput]; rfl
        | diverge => rw [hd] at hput; simp only [ent] at hput; rw [hput]; rfl

theorem orderedM_ok {L : List (Place × MTy A)} {S obj : Nat} {m : Mem A} (hf : ListFits L S) (hS : 0 < S) (h1 : obj + S ≤ m.size)
    (h2 : m.size < 2 ^ 32) (hz : AllZero (bytes m obj) S) (law : ∀ x ∈ L, TyLaw x.2) (g : Load) :
    Agrees (obj, S) m (fun m' ss => Here L S obj m' ss) (decodeOrderedM (L.map ent) obj g m)
      (decodeOrdered (L.map slo) g) := by
  unfold decodeOrderedM decodeOrdered
  rw [membof_ok (by omega)]
  simp only [Res.out, List.length_map]
  exact (orderedM_loops law _).1 [] L [] g.start m rfl rfl (here_zero hf h1 h2 hz)

/-! ### Types -/

theorem gtlvsM_ok {t : MTab A} {S obj : Nat} {m : Mem A} (hf : ListFits t.list S) (hS : 0 < S) (h1 : obj + S ≤ m.size)
    (h2 : m.size < 2 ^ 32) (hz : AllZero (bytes m obj) S) (law : ∀ x ∈ t.list, TyLaw x.2) (g : Load) (ordered : Bool) :
    Agrees (obj, S) m (fun m' ss => Here t.list S obj m' ss) (gtlvsDecodeM obj g ordered m (some t.entries))
      (gtlvsDecode g ordered (some (slotsOf t))) := by
  rw [entries_list, slotsOf_list]
  cases ordered with
  | true => exact orderedM_ok hf hS h1 h2 hz law g
  | false => exact unorderedM_ok hf hS h1 h2 hz law g

theorem leaf_law (l : Leaf A) (hl : 0 < l.size) : TyLaw (.leaf l) := by
  intro m a p n h1 h2 hz
  simp only [MTy.decM, MTy.decV, Leaf.decM, byteSize] at *
  rw [membof_ok (by omega)]
  simp only [Res.out, Nat.zero_add]
  cases hd : l.dec p n with
  | ok v =>
    obtain ⟨m', e, ho, hb⟩ := store_ok (m := m) (a := a) (k := l.size) (Cell.part v) h1
    simp only [Res.bind_ok']
    rw [e]
    exact ⟨m', rfl, ho, .inl hb⟩
  | err e =>
    obtain ⟨m', e', ho, hb⟩ := store_ok (m := m) (a := a) (k := l.size) (l.left p n) h1
    simp only
    rw [e']
    exact ⟨m', rfl, ho⟩
  | abort => rfl
  | ub => rfl
  | diverge => rfl

mutual
theorem ty_law : ∀ ty : MTy A, TyFits ty → TyLaw ty
  | .leaf l, h => leaf_law l (by simpa only [TyFits] using h)
  | .nested S cfg o t, hf => by
    simp only [TyFits] at hf
    intro m a p n h1 h2 hz
    simp only [MTy.decM, MTy.decV, byteSize] at *
    rw [Nat.mod_eq_of_lt (by omega)]
    have hF : Fits t S := ⟨hf.1, hf.2.1, hf.2.2.1, hf.2.2.2⟩
    have := gtlvsM_ok hF.list hf.1 h1 h2 hz (tab_law t hf.2.2.2) { cfg := cfg, mem := p, srcLen := n } o
    cases hd : gtlvsDecode { cfg := cfg, mem := p, srcLen := n } o (some (slotsOf t)) with
    | ok v =>
      rw [hd] at this
      obtain ⟨m', e, ho, h⟩ := this
      refine ⟨m', e, ho, ?_⟩
      simp only [IsVal]
      exact (isStruct_list _ _ _).2 (h.inv.imp_mem fun _ _ _ hb => hb.1)
    | err e => rw [hd] at this; exact this
    | abort => rw [hd] at this; exact this
    | ub => rw [hd] at this; exact this
    | diverge => rw [hd] at this; exact this
theorem tab_law : ∀ t : MTab A, TabFits t → ∀ x ∈ t.list, TyLaw x.2
  | .nil, _, x, hx => by simp [MTab.list] at hx
  | .cons p ty r, hf, x, hx => by
    simp only [TabFits] at hf
    rcases List.mem_cons.1 hx with rfl | hx'
    · exact ty_law ty hf.2.1
    · exact tab_law r hf.2.2 x hx'
end

end Verif
