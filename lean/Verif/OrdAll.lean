/-
Ordered decoding against its specification for any table and any octets.
-/
import Verif.ReportOrd
import Verif.OrdSpec
import Verif.SpecOrdAll

namespace Verif
open Spec Props

variable {A : Type}

@[simp] theorem Rep.bind_ok' {α β} (a : α) (f : α → Rep β) : Rep.bind (.ok a, []) f = f a := by simp [Rep.bind]

theorem Rep.bind_pure {α} (x : Rep α) : (x.bind fun a => (.ok a, [])) = x := by
  rcases x with ⟨r, l⟩
  cases r <;> simp [Rep.bind]

@[simp] theorem Rep.bind_err' {α β} (e : Errno) (l : List Report) (f : α → Rep β) : Rep.bind (.err e, l) f = (.err e, l) := rfl

theorem entryR_bind {α β : Type} (half : Option TagInst) (c : RCoding A) (later : Bool) (room : Nat)
    (here : List (TagInst × List UInt8)) (next : List (Val A) → Bool → List (TagInst × List UInt8) → Rep α) (k : α → Rep β) :
    (entryR half c later room here next).bind k = entryR half c later room here fun vs go l => (next vs go l).bind k := by
  unfold entryR
  cases c.c.kind with
  | multi max m =>
    simp only [Rep.bind_assoc]
    congr 1
    funext vs
    split
    · split <;> rfl
    · split <;> rfl
  | _ => simp only [Rep.bind_assoc]

/-- Entries before the next one for the tag. -/
theorem inOrderR_go {bad : Bool} {half : Option TagInst} {t : TagInst} {v : List UInt8} {l : List (TagInst × List UInt8)} :
    ∀ {cs : List (RCoding A)} {k : Nat} {c' : RCoding A} {cs' : List (RCoding A)}, findLaterR t cs = some (k, c', cs') →
    inOrderR bad half cs true ((t, v) :: l) =
      entryR half c' (decide (c'.c.ti ∈ cs'.map fun c => c.c.ti)) (most c'.c.kind) ((t, v) :: l) fun vs go ies =>
        (inOrderR bad half cs' go ies).bind fun s => (.ok (List.replicate k [] ++ vs :: s), []) := by
  intro cs
  induction cs with
  | nil => nofun
  | cons d cs ih =>
    intro k c' cs' h
    simp only [findLaterR] at h
    simp only [inOrderR, if_true]
    by_cases hd : tagInstCmp (some t) (some d.c.ti) = 0
    · rw [if_pos hd] at h
      simp only [Option.some.injEq, Prod.mk.injEq] at h
      obtain ⟨rfl, rfl, rfl⟩ := h
      rw [if_pos (cmp_eq.1 hd)]
      rfl
    · rw [if_neg hd] at h
      cases hf : findLaterR t cs with
      | none => rw [hf] at h; cases h
      | some r =>
        obtain ⟨k0, c0, cs0⟩ := r
        rw [hf] at h
        simp only [Option.map_some, Option.some.injEq, Prod.mk.injEq] at h
        obtain ⟨rfl, rfl, rfl⟩ := h
        rw [if_neg (fun h => hd (cmp_eq.2 h)), ih hf, entryR_bind]
        simp only [Rep.bind_assoc, Rep.bind_ok', List.replicate_succ, List.cons_append]

theorem findLaterR_length {t : TagInst} : ∀ {cs : List (RCoding A)} {k : Nat} {c' : RCoding A} {cs' : List (RCoding A)},
    findLaterR t cs = some (k, c', cs') → cs'.length ≤ cs.length := by
  intro cs
  induction cs with
  | nil => nofun
  | cons d cs ih =>
    intro k c' cs' h
    simp only [findLaterR] at h
    split at h
    · simp only [Option.some.injEq, Prod.mk.injEq] at h
      obtain ⟨_, _, rfl⟩ := h
      simp
    · cases hf : findLaterR t cs with
      | none => rw [hf] at h; cases h
      | some r =>
        obtain ⟨k0, c0, cs0⟩ := r
        rw [hf] at h
        simp only [Option.map_some, Option.some.injEq, Prod.mk.injEq] at h
        obtain ⟨_, _, rfl⟩ := h
        have := ih hf
        simp only [List.length_cons]
        omega

theorem findLaterR_none {t : TagInst} {cs : List (RCoding A)} : findLaterR t cs = none ↔ t ∉ cs.map fun c => c.c.ti := by
  induction cs with
  | nil => simp [findLaterR]
  | cons d cs ih =>
    simp only [findLaterR, List.map_cons, List.mem_cons, not_or]
    by_cases hd : tagInstCmp (some t) (some d.c.ti) = 0
    · rw [if_pos hd]
      simp [cmp_eq.1 hd]
    · rw [if_neg hd]
      simp only [Option.map_eq_none_iff, ih]
      exact ⟨fun h => ⟨fun e => hd (cmp_eq.2 e), h⟩, fun h => h.2⟩

section
variable {cfg : Cfg} {hdr : TagInst → Nat → List UInt8} {dom : TagInst → Nat → Prop}

/-- What is seen ahead, in octets that are no IE. -/
def HalfOf (cfg : Cfg) (junk : List UInt8) (half : Option TagInst) : Prop :=
  ∀ g : Load, g.At cfg junk → match half with
    | some t => peekTag g = .ok t
    | none => ∃ e, peekTag g = .err e

theorem ordTargetR_room (pos : OrdPosR A) (ti : TagInst) (h : pos.s.length < pos.c.c.kind.cap) :
    ordTargetR pos ti = (.ok pos, []) := by
  unfold ordTargetR
  cases hk : pos.c.c.kind with
  | mand => rfl
  | opt => rfl
  | multi max m => simp only [hk, Kind.cap] at h; simp only; rw [if_neg (by omega)]

theorem most_cap (k : Kind) : most k = k.cap := by cases k <;> rfl

theorem orderedR_spec (h : cfg.Lawful hdr dom) (junk : List UInt8) (hj : junk = [] ∨ BadRest cfg hdr dom junk)
    (half : Option TagInst) (hh : HalfOf cfg junk half) (fuel : Nat) :
    (∀ (cs : List (RCoding A)) (done : List (List (Val A))) (g : Load) (l : List (TagInst × List UInt8)),
      (∀ c ∈ cs, LooksOnlyAtIeR c ∧ 0 < c.c.kind.cap) → tlvsDom dom l → g.At cfg (tlvBytes hdr l ++ junk) →
      cs.length + l.length < fuel →
      decodeOrderedOuterR fuel cs done g =
        (inOrderR (decide (junk ≠ [])) half cs false l).bind fun s => (.ok (done.reverse ++ s), [])) ∧
    (∀ (pos : OrdPosR A) (g : Load) (v : List UInt8) (l : List (TagInst × List UInt8)),
      (∀ c ∈ pos.c :: pos.cs, LooksOnlyAtIeR c ∧ 0 < c.c.kind.cap) → tlvsDom dom l →
      g.At cfg (tlvBytes hdr l ++ junk) → g.On pos.c.c.ti v →
      ((∀ mx mn, pos.c.c.kind ≠ .multi mx mn) → pos.s = []) →
      pos.cs.length + l.length + 1 < fuel →
      decodeOrderedInnerR fuel pos g =
        entryR half pos.c (decide (pos.c.c.ti ∈ pos.cs.map fun c => c.c.ti)) (pos.c.c.kind.cap - pos.s.length)
          ((pos.c.c.ti, v) :: l) fun vs go ies =>
          (inOrderR (decide (junk ≠ [])) half pos.cs go ies).bind fun s => (.ok (pos.done.reverse ++ (pos.s ++ vs) :: s), [])) := by
  induction fuel with
  | zero => exact ⟨fun _ _ _ _ _ _ _ h => by omega, fun _ _ _ _ _ _ _ _ _ h => by omega⟩
  | succ fuel ih =>
    obtain ⟨iho, ihi⟩ := ih
    have room : ∀ (pos : OrdPosR A) (g : Load) (v : List UInt8) (l : List (TagInst × List UInt8)),
      (∀ c ∈ pos.c :: pos.cs, LooksOnlyAtIeR c ∧ 0 < c.c.kind.cap) → tlvsDom dom l →
      g.At cfg (tlvBytes hdr l ++ junk) → g.On pos.c.c.ti v →
      ((∀ mx mn, pos.c.c.kind ≠ .multi mx mn) → pos.s = []) →
      pos.cs.length + l.length + 1 < fuel + 1 → pos.s.length < pos.c.c.kind.cap →
      decodeOrderedInnerR (fuel + 1) pos g =
        entryR half pos.c (decide (pos.c.c.ti ∈ pos.cs.map fun c => c.c.ti)) (pos.c.c.kind.cap - pos.s.length)
          ((pos.c.c.ti, v) :: l) fun vs go ies =>
          (inOrderR (decide (junk ≠ [])) half pos.cs go ies).bind fun s =>
            (.ok (pos.done.reverse ++ (pos.s ++ vs) :: s), []) := by
      intro pos g v l hlo hd ha hon hs hf hr
      simp only [decodeOrderedInnerR]
      rw [ordTargetR_room _ _ hr]
      simp only [Rep.bind_ok']
      obtain ⟨tail, hm⟩ := hon.mem
      have hlc := (hlo pos.c (by simp)).1
      have hrest : ∀ c ∈ pos.cs, LooksOnlyAtIeR c ∧ 0 < c.c.kind.cap := fun c hc => hlo c (by simp [hc])
      -- the first value
      have hval : ∀ (f : Val A → Rep (Struct A)), (match pos.c.c.dec with
          | none => returnError .EIO pos.c.c.ti .noDecoder
          | some dec => Rep.bind (match dec g.valueMem g.len with
            | .err e => (.err e, pos.c.decReports g.valueMem g.len ++
                [{ ti := pos.c.c.ti, rc := e, text := if pos.c.nested then .inside else .value' }])
            | r => (r, pos.c.decReports g.valueMem g.len)) f) = (valueR pos.c v).bind f := by
        intro f
        unfold valueR
        cases hdec : pos.c.c.dec with
        | none => rfl
        | some d =>
          simp only
          rw [hm, hon.len, hlc.1 d hdec v tail, hlc.2]
          cases d v v.length <;> rfl
      refine (hval _).trans ?_
      have hcont : ∀ (w : Val A) (ies : List (TagInst × List UInt8)), (l = ies) →
          decodeOrderedOuterR fuel pos.cs ((pos.s ++ [w]) :: pos.done) g =
          (inOrderR (decide (junk ≠ [])) half pos.cs false ies).bind fun s =>
            (.ok (pos.done.reverse ++ (pos.s ++ [w]) :: s), []) := by
        intro w ies e
        subst e
        rw [iho pos.cs _ g l hrest hd ha (by omega)]
        simp
      unfold entryR
      cases hk : pos.c.c.kind with
      | multi mx mn =>
        rw [hk] at hr
        have hr' : pos.s.length < mx := hr
        simp only [storeVal, if_pos hr, Rep.bind_ok']
        obtain ⟨r, er⟩ : ∃ r, mx - pos.s.length = r + 1 := ⟨mx - pos.s.length - 1, by omega⟩
        have er' : (Kind.multi mx mn).cap - pos.s.length = r + 1 := er
        rw [er']
        simp only [List.takeWhile_cons, decide_true, if_true, List.length_cons]
        -- no IE of the same tag follows directly
        have stop : (l.takeWhile fun x => x.1 = pos.c.c.ti) = [] → ¬ (l = [] ∧ half = some pos.c.c.ti) →
            ((valueR pos.c v).bind fun w => decodeOrderedOuterR fuel pos.cs ((pos.s ++ [w]) :: pos.done) g) =
            (valuesR pos.c ((List.take (min (r + 1) ((l.takeWhile fun x => x.1 = pos.c.c.ti).length + 1))
              ((pos.c.c.ti, v) :: l)).map Prod.snd)).bind fun vs =>
              if r + 1 < (l.takeWhile fun x => x.1 = pos.c.c.ti).length + 1 then
                if decide (pos.c.c.ti ∈ pos.cs.map fun c => c.c.ti) = true then
                  (inOrderR (decide (junk ≠ [])) half pos.cs true (List.drop (r + 1) ((pos.c.c.ti, v) :: l))).bind fun s =>
                    (.ok (pos.done.reverse ++ (pos.s ++ vs) :: s), [])
                else (.err .ENOTSUP, [{ ti := pos.c.c.ti, rc := .ENOTSUP, text := .surplus mx }])
              else if (l.takeWhile fun x => x.1 = pos.c.c.ti).length + 1 = l.length + 1 ∧ half = some pos.c.c.ti then
                (.err .EBADMSG, [])
              else (inOrderR (decide (junk ≠ [])) half pos.cs false
                (List.drop ((l.takeWhile fun x => x.1 = pos.c.c.ti).length + 1) ((pos.c.c.ti, v) :: l))).bind fun s =>
                  (.ok (pos.done.reverse ++ (pos.s ++ vs) :: s), []) := by
          intro h1 h2
          rw [h1]
          simp only [List.length_nil, Nat.zero_add, show min (r + 1) 1 = 1 from by omega, List.take_succ_cons, List.take_zero,
            List.map_cons, List.map_nil, valuesR, Rep.bind_ok', Rep.bind_assoc, List.drop_succ_cons, List.drop_zero]
          congr 1
          funext w
          rw [if_neg (by omega), if_neg (by
            rintro ⟨e1, e2⟩
            exact h2 ⟨List.length_eq_zero_iff.1 (by omega), e2⟩)]
          exact hcont w l rfl
        cases l with
        | nil =>
          simp only [tlvBytes, List.nil_append] at ha
          rcases hj with rfl | hj
          · have hp := peekTag_done ha
            have hn : half = none := by
              have := hh g ha
              cases half with
              | none => rfl
              | some t => rw [hp] at this; cases this
            rw [hp]
            exact stop rfl (by simp [hn])
          · have hp := hh g ha
            cases half with
            | none =>
              obtain ⟨e, hp⟩ := hp
              rw [hp]
              exact stop rfl (by simp)
            | some t =>
              simp only at hp
              rw [hp]
              simp only
              by_cases ht : t = pos.c.c.ti
              · obtain ⟨g', hg⟩ := ha.bad h hj
                have hc : ¬ t.cmp g.ti ≠ 0 := by simp [hon.ti, TagInst.cmp_eq_zero, ht]
                simp only [if_neg hc, hg]
                simp [ht, valuesR, Rep.bind_assoc]
              · have hc : t.cmp g.ti ≠ 0 := fun hc => ht (by rw [TagInst.cmp_eq_zero.mp hc, hon.ti])
                simp only [if_pos hc]
                exact stop rfl (by simp [ht])
        | cons x l =>
          obtain ⟨t, v2⟩ := x
          have ha' : g.At cfg (hdr t v2.length ++ v2 ++ (tlvBytes hdr l ++ junk)) := by simpa [tlvBytes] using ha
          have hdx := hd (t, v2) (by simp)
          rw [peekTag_at h hdx ha']
          simp only
          by_cases ht : t = pos.c.c.ti
          · have hc : ¬ t.cmp g.ti ≠ 0 := by simp [hon.ti, TagInst.cmp_eq_zero, ht]
            simp only [if_neg hc]
            obtain ⟨g', h1, h2, h3, h4, h5, _, _, _, h9, _⟩ := Load.At.next h hdx ha'
            rw [h1]
            simp only
            subst ht
            have hi := fun w : Val A => ihi { pos with s := pos.s ++ [w] } g' v2 l hlo (fun y hy => hd y (by simp [hy])) h2
              ⟨h3, h5, h9⟩ (fun hab => absurd hk (hab _ _)) (by simp only [List.length_cons] at hf ⊢; omega)
            simp only [entryR, hk, List.length_append, List.length_cons, List.length_nil, Nat.zero_add,
              List.takeWhile_cons, decide_true, if_true,
              show (Kind.multi mx mn).cap - (pos.s.length + 1) = r from by simp only [Kind.cap]; omega] at hi
            simp only [hi, List.takeWhile_cons, decide_true, if_true, List.length_cons, Nat.add_min_add_right, List.take_succ_cons,
              List.map_cons, valuesR, Rep.bind_assoc, Rep.bind_ok', List.drop_succ_cons, Nat.add_lt_add_iff_right,
              Nat.add_right_cancel_iff]
            simp only [List.append_assoc, List.singleton_append]
          · have hc : t.cmp g.ti ≠ 0 := fun hc => ht (by rw [TagInst.cmp_eq_zero.mp hc, hon.ti])
            simp only [if_pos hc]
            exact stop (by simp [ht]) (by simp)
      | mand =>
        have h0 := hs (by simp [hk])
        simp only [h0, storeVal, Kind.cap, List.length_nil, Nat.zero_lt_one, if_true, Rep.bind_ok', List.nil_append, List.take_succ_cons,
          List.take_zero, List.map_cons, List.map_nil, valuesR, Rep.bind_assoc, List.drop_succ_cons, List.drop_zero]
        congr 1
        funext w
        have := hcont w l rfl
        simpa [h0] using this
      | opt =>
        have h0 := hs (by simp [hk])
        simp only [h0, storeVal, Kind.cap, List.length_nil, Nat.zero_lt_one, if_true, Rep.bind_ok', List.nil_append, List.take_succ_cons,
          List.take_zero, List.map_cons, List.map_nil, valuesR, Rep.bind_assoc, List.drop_succ_cons, List.drop_zero]
        congr 1
        funext w
        have := hcont w l rfl
        simpa [h0] using this
    constructor
    · intro cs done g l hlo hd ha hf
      cases cs with
      | nil => simp [decodeOrderedOuterR, inOrderR]
      | cons c cs =>
        simp only [List.length_cons] at hf
        simp only [decodeOrderedOuterR, inOrderR]
        rcases nextByTagInst_at h c.c.ti hd hj ha with
          ⟨pre, v, post, g', e1, e2, e3, e4, e5⟩ | ⟨e1, e2, e3⟩ | ⟨e1, e2, e3⟩
        · have hdp : tlvsDom dom post := fun x hx => hd x (by simp [e1, hx])
          have hl : post.length < l.length := by rw [e1]; simp; omega
          have hdw := dropWhile_split e1 e2
          simp only [Bool.false_eq_true, if_false]
          rw [e3, hdw]
          simp only [if_true]
          rw [ihi { c := c, s := [], cs := cs, done := done } g' v post hlo hdp e4 e5 (fun _ => rfl) (by simp only; omega),
            entryR_bind]
          simp only [Rep.bind_assoc, Rep.bind_ok', List.nil_append, List.length_nil, Nat.sub_zero, most_cap]
        · have hdw := dropWhile_none e1
          simp only [Bool.false_eq_true, if_false]
          rw [e3, hdw]
          have step := iho cs ([] :: done) g l (fun c hc => hlo c (by simp [hc])) hd ha (by omega)
          subst e2
          simp only [ne_eq, not_true_eq_false, decide_false, Bool.false_eq_true, if_false] at step ⊢
          have step' : decodeOrderedOuterR fuel cs ([] :: done) g =
              ((inOrderR false half cs false l).bind fun s => (.ok ([] :: s), [])).bind fun s =>
                (.ok (done.reverse ++ s), []) := by
            rw [step, Rep.bind_assoc]
            simp
          cases hk : c.c.kind with
          | mand => simp [least, returnError]
          | opt => simpa [least] using step'
          | multi mx mn =>
            simp only
            by_cases hm : 0 < mn
            · rw [if_pos hm, if_pos (show 0 < least (.multi mx mn) from hm)]; rfl
            · rw [if_neg hm, if_neg (show ¬ 0 < least (.multi mx mn) from hm)]; exact step'
        · have hdw := dropWhile_none e1
          simp only [Bool.false_eq_true, if_false]
          rw [e3, hdw]
          simp [e2, returnError]
    · intro pos g v l hlo hd ha hon hs hf
      by_cases hr : pos.s.length < pos.c.c.kind.cap
      · exact room pos g v l hlo hd ha hon hs hf hr
      · cases hk : pos.c.c.kind with
        | mand => exact absurd (by rw [hs (by simp [hk]), hk]; exact Nat.zero_lt_one) hr
        | opt => exact absurd (by rw [hs (by simp [hk]), hk]; exact Nat.zero_lt_one) hr
        | multi mx mn =>
          rw [hk] at hr
          have hfull : mx ≤ pos.s.length := by simp only [Kind.cap] at hr; omega
          have hcap : (Kind.multi mx mn).cap - pos.s.length = 0 := by simp only [Kind.cap]; omega
          unfold entryR
          simp only [hk, hcap, Nat.zero_min, List.take_zero, List.map_nil, valuesR, Rep.bind_ok', List.append_nil,
            List.takeWhile_cons, decide_true, if_true, List.length_cons, Nat.zero_lt_succ, List.drop_zero]
          cases hfl : findLaterR pos.c.c.ti pos.cs with
          | none =>
            have ht : ordTargetR pos g.ti = returnError .ENOTSUP pos.c.c.ti (.surplus mx) := by
              unfold ordTargetR
              simp [hk, hfull, hon.ti, hfl]
            simp only [decodeOrderedInnerR, ht]
            rw [if_neg (by simpa using findLaterR_none.1 hfl)]
            rfl
          | some q =>
            obtain ⟨k, c', cs'⟩ := q
            have hin : pos.c.c.ti ∈ pos.cs.map fun c => c.c.ti :=
              Classical.byContradiction fun hn => by rw [findLaterR_none.2 hn] at hfl; cases hfl
            obtain ⟨m1, m2, m3⟩ := findLaterR_spec hfl
            let pos' : OrdPosR A := { c := c', s := [], cs := cs', done := List.replicate k [] ++ pos.s :: pos.done }
            have ht : ordTargetR pos g.ti = (.ok pos', []) := by
              unfold ordTargetR
              simp [hk, hfull, hon.ti, hfl, pos']
            have hc' : LooksOnlyAtIeR c' ∧ 0 < c'.c.kind.cap := hlo c' (by simp [m1])
            have ht' : ordTargetR pos' g.ti = (.ok pos', []) := ordTargetR_room pos' _ hc'.2
            have same : decodeOrderedInnerR (fuel + 1) pos g = decodeOrderedInnerR (fuel + 1) pos' g := by
              simp only [decodeOrderedInnerR, ht, ht']
            have hlen : cs'.length ≤ pos.cs.length := by
              exact findLaterR_length hfl
            rw [if_pos (by simpa using hin), same, inOrderR_go hfl, entryR_bind,
              room pos' g v l (by
                intro c hc
                rcases List.mem_cons.1 hc with rfl | hc
                · exact hc'
                · exact hlo c (by simp [m2 c hc])) hd ha (by rw [show pos'.c.c.ti = pos.c.c.ti from m3]; exact hon)
                (fun _ => rfl) (by show cs'.length + _ + 1 < _; omega) hc'.2]
            simp only [pos', m3, List.length_nil, Nat.sub_zero, most_cap, List.nil_append, Rep.bind_assoc, Rep.bind_ok',
              List.reverse_append, List.reverse_cons, List.reverse_replicate, List.append_assoc, List.cons_append]

end
end Verif
