/-
Ordered decoding against its specification, and without invalid accesses.
-/
import Verif.OrdLemmas
import Verif.SpecOrd

namespace Verif
open Spec
variable {A : Type}

section
variable {cfg : Cfg} {hdr : TagInst → Nat → List UInt8} {dom : TagInst → Nat → Prop}

theorem ordTarget_distinct {pos : OrdPos A} {ti : TagInst} (hti : ti = pos.c.ti)
    (hnd : pos.c.ti ∉ pos.cs.map (·.ti)) (hs : (∀ mx mn, pos.c.kind ≠ .multi mx mn) → pos.s = []) :
    ordTarget pos ti = if most pos.c.kind ≤ pos.s.length then .err .ENOTSUP else .ok pos := by
  unfold ordTarget
  have hf : findLater ti pos.cs = none := by
    cases h : findLater ti pos.cs with
    | none => rfl
    | some r =>
      obtain ⟨k, c', cs'⟩ := r
      obtain ⟨mid, m1, m2, m3⟩ := findLater_spec h
      exact absurd (by rw [m1, ← hti, ← m3]; simp) hnd
  cases hk : pos.c.kind with
  | mand => simp [most, hs (by simp [hk])]
  | opt => simp [most, hs (by simp [hk])]
  | multi mx mn =>
    simp only [hf]
    by_cases hc : mx ≤ pos.s.length
    · rw [if_pos hc, if_pos (show most (.multi mx mn) ≤ _ from hc)]
    · rw [if_neg hc, if_neg (show ¬ most (.multi mx mn) ≤ _ from hc)]

theorem dropWhile_split {l pre post : List (TagInst × List UInt8)} {t : TagInst} {v} (h : l = pre ++ (t, v) :: post)
    (hp : ∀ x ∈ pre, x.1 ≠ t) : l.dropWhile (fun x => x.1 ≠ t) = (t, v) :: post := by
  subst h
  induction pre with
  | nil => simp
  | cons y pre ih =>
    have := hp y (by simp)
    simp only [List.cons_append, List.dropWhile_cons, this, ne_eq, not_false_eq_true, decide_true, if_true]
    exact ih fun x hx => hp x (by simp [hx])

theorem dropWhile_none {l : List (TagInst × List UInt8)} {t : TagInst} (hp : ∀ x ∈ l, x.1 ≠ t) :
    l.dropWhile (fun x => x.1 ≠ t) = [] := by
  induction l with
  | nil => rfl
  | cons y l ih =>
    have := hp y (by simp)
    simp only [List.dropWhile_cons, this, ne_eq, not_false_eq_true, decide_true, if_true]
    exact ih fun x hx => hp x (by simp [hx])

theorem ordered_spec (h : cfg.Lawful hdr dom) (fuel : Nat) :
    (∀ (cs : List (Coding A)) (done : List (List (Val A))) (g : Load) (l : List (TagInst × List UInt8)),
      (cs.map (·.ti)).Nodup → (∀ c ∈ cs, LooksOnlyAtIe c) → tlvsDom dom l → g.At cfg (tlvBytes hdr l) →
      cs.length + l.length < fuel →
      decodeOrderedOuter fuel cs done g = (inOrder cs l).bind fun s => .ok (done.reverse ++ s)) ∧
    (∀ (pos : OrdPos A) (g : Load) (v : List UInt8) (l : List (TagInst × List UInt8)),
      (pos.c.ti :: pos.cs.map (·.ti)).Nodup → (∀ c ∈ pos.c :: pos.cs, LooksOnlyAtIe c) → tlvsDom dom l →
      g.At cfg (tlvBytes hdr l) → g.On pos.c.ti v →
      ((∀ mx mn, pos.c.kind ≠ .multi mx mn) → pos.s = []) →
      pos.cs.length + l.length + 1 < fuel →
      decodeOrderedInner fuel pos g =
        (memberValues pos.c pos.s.length (v :: (l.take (runLength pos.c l)).map Prod.snd)).bind fun vs =>
        (inOrder pos.cs (l.drop (runLength pos.c l))).bind fun s => .ok (pos.done.reverse ++ (pos.s ++ vs) :: s)) := by
  induction fuel with
  | zero => exact ⟨fun _ _ _ _ _ _ _ _ h => by omega, fun _ _ _ _ _ _ _ _ _ _ h => by omega⟩
  | succ fuel ih =>
    obtain ⟨iho, ihi⟩ := ih
    constructor
    · intro cs done g l hnd hlo hd ha hf
      cases cs with
      | nil => simp [decodeOrderedOuter, inOrder]
      | cons c cs =>
        simp only [List.map_cons] at hnd
        have hnd' := (List.nodup_cons.mp hnd).2
        simp only [List.length_cons] at hf
        simp only [decodeOrderedOuter, inOrder]
        rcases nextByTagInst_at h c.ti hd (.inl rfl) (g := g) (by simpa using ha) with
          ⟨pre, v, post, g', e1, e2, e3, e4, e5⟩ | ⟨e1, _, e3⟩ | ⟨_, e2, _⟩
        · have hdp : tlvsDom dom post := fun x hx => hd x (by simp [e1, hx])
          have hl : post.length < l.length := by rw [e1]; simp; omega
          rw [e3, dropWhile_split e1 e2]
          simp only
          rw [ihi _ g' v post hnd hlo hdp (by simpa using e4) e5 (fun _ => rfl) (by simp only; omega)]
          cases memberValues c 0 (v :: (post.take (runLength c post)).map Prod.snd) with
          | ok vs => cases inOrder cs (post.drop (runLength c post)) <;> simp [Res.bind]
          | _ => rfl
        · rw [e3, dropWhile_none e1]
          simp only
          have := iho cs ([] :: done) g l hnd' (fun c hc => hlo c (by simp [hc])) hd ha (by omega)
          have step : decodeOrderedOuter fuel cs ([] :: done) g =
              ((inOrder cs l).bind fun s => Res.ok ([] :: s)).bind fun s => .ok (done.reverse ++ s) := by
            rw [this]
            cases inOrder cs l <;> simp [Res.bind]
          cases hk : c.kind with
          | mand => simp [least, Res.bind]
          | opt => simpa [least] using step
          | multi mx mn =>
            simp only
            by_cases hm : 0 < mn
            · rw [if_pos hm, if_pos (show 0 < least (.multi mx mn) from hm)]; rfl
            · rw [if_neg hm, if_neg (show ¬ 0 < least (.multi mx mn) from hm)]; exact step
        · simp at e2
    · intro pos g v l hnd hlo hd ha hon hs hf
      have hnd' := (List.nodup_cons.mp hnd)
      simp only [decodeOrderedInner]
      rw [ordTarget_distinct hon.ti hnd'.1 hs, memberValues]
      by_cases hfull : most pos.c.kind ≤ pos.s.length
      · rw [if_pos hfull, if_pos hfull]; rfl
      · rw [if_neg hfull, if_neg hfull]
        simp only [Res.bind_ok']
        cases hdec : pos.c.dec with
        | none => rfl
        | some d =>
          simp only
          obtain ⟨tail, hm⟩ := hon.mem
          rw [hm, hon.len, hlo pos.c (by simp) d hdec v tail]
          cases hv : d v v.length with
          | ok w =>
            simp only [Res.bind_ok', storeVal]
            have hcap : pos.s.length < pos.c.kind.cap := by
              have : pos.c.kind.cap = most pos.c.kind := by cases pos.c.kind <;> rfl
              omega
            rw [if_pos hcap]
            simp only [Res.bind_ok']
            have stop : ∀ l', runLength pos.c l = 0 → l' = l →
                decodeOrderedOuter fuel pos.cs ((pos.s ++ [w]) :: pos.done) g =
                ((memberValues pos.c (pos.s.length + 1) ((l.take (runLength pos.c l)).map Prod.snd)).bind fun vs =>
                  Res.ok (w :: vs)).bind fun vs =>
                (inOrder pos.cs (l.drop (runLength pos.c l))).bind fun s =>
                  .ok (pos.done.reverse ++ (pos.s ++ vs) :: s) := by
              intro _ h0 _
              rw [iho pos.cs _ g l hnd'.2 (fun c hc => hlo c (by simp [hc])) hd ha (by omega), h0]
              simp [memberValues]
            cases hk : pos.c.kind with
            | mand => exact stop l (by simp [runLength, hk]) rfl
            | opt => exact stop l (by simp [runLength, hk]) rfl
            | multi mx mn =>
              simp only
              cases l with
              | nil =>
                rw [peekTag_done (by simpa [tlvBytes] using ha)]
                exact stop [] (by simp [runLength, hk]) rfl
              | cons x l =>
                obtain ⟨t, v2⟩ := x
                have ha' : g.At cfg (hdr t v2.length ++ v2 ++ tlvBytes hdr l) := by simpa [tlvBytes] using ha
                have hdx := hd (t, v2) (by simp)
                rw [peekTag_at h hdx ha']
                simp only
                by_cases ht : t = pos.c.ti
                · rw [if_neg (by simp [hon.ti, TagInst.cmp_eq_zero, ht])]
                  obtain ⟨g', h1, h2, h3, h4, h5, _, _, _, h9, _⟩ := Load.At.next h hdx ha'
                  rw [h1]
                  simp only
                  have hrun : runLength pos.c ((t, v2) :: l) = runLength pos.c l + 1 := by
                    simp [runLength, hk, ht]
                  subst ht
                  rw [ihi { pos with s := pos.s ++ [w] } g' v2 l hnd hlo (fun y hy => hd y (by simp [hy])) h2
                    ⟨h3, h5, h9⟩ (fun hab => absurd hk (hab _ _)) (by simp only [List.length_cons] at hf ⊢; omega), hrun]
                  simp only [List.length_append, List.length_cons, List.length_nil, List.take_succ_cons, List.map_cons,
                    List.drop_succ_cons]
                  cases memberValues pos.c (pos.s.length + 0 + 1) (v2 :: (l.take (runLength pos.c l)).map Prod.snd) <;>
                    simp [Res.bind]
                · rw [if_pos (fun hh => ht (by rw [TagInst.cmp_eq_zero.mp hh, hon.ti]))]
                  exact stop ((t, v2) :: l) (by simp [runLength, hk, ht]) rfl
          | _ => rfl

theorem decodeOrdered_spec (h : cfg.Lawful hdr dom) {codings : List (Coding A)} (hnd : (codings.map (·.ti)).Nodup)
    (hlo : ∀ c ∈ codings, LooksOnlyAtIe c) {l : List (TagInst × List UInt8)} (hd : tlvsDom dom l) (tail : List UInt8) :
    decodeOrdered codings { cfg := cfg, mem := tlvBytes hdr l ++ tail, srcLen := (tlvBytes hdr l).length } =
      inOrder codings l := by
  unfold decodeOrdered
  have ha : (Load.start { cfg := cfg, mem := tlvBytes hdr l ++ tail, srcLen := (tlvBytes hdr l).length }).At cfg
      (tlvBytes hdr l) :=
    ⟨rfl, by simp [Load.start], by simp [Load.pos, Load.start], by simp [Load.rest, Load.pos, Load.start]⟩
  have hlen : l.length ≤ (tlvBytes hdr l).length := by
    have h4 := tlvBytes_length_ge h l
    have := h.tlMin_pos
    have : l.length ≤ l.length * cfg.tlMin := Nat.le_mul_of_pos_right _ this
    omega
  rw [(ordered_spec h _).1 codings [] _ l hnd hlo hd ha (by simp only; omega)]
  cases inOrder codings l <;> simp [Res.bind]

/-! ### No invalid access -/

theorem ordered_no_ub (h : cfg.Lawful hdr dom) (junk : List UInt8)
    (hj : junk = [] ∨ BadRest cfg hdr dom junk) (fuel : Nat) :
    (∀ (cs : List (Coding A)) (done : List (List (Val A))) (g : Load) (l : List (TagInst × List UInt8)),
      (∀ c ∈ cs, 0 < c.kind.cap) → (∀ c ∈ cs, ∀ d, c.dec = some d → ∀ p n, n ≤ p.length → d p n ≠ .ub) →
      tlvsDom dom l → g.At cfg (tlvBytes hdr l ++ junk) →
      decodeOrderedOuter fuel cs done g ≠ .ub) ∧
    (∀ (pos : OrdPos A) (g : Load) (v : List UInt8) (l : List (TagInst × List UInt8)),
      (∀ c ∈ pos.c :: pos.cs, 0 < c.kind.cap) →
      (∀ c ∈ pos.c :: pos.cs, ∀ d, c.dec = some d → ∀ p n, n ≤ p.length → d p n ≠ .ub) →
      tlvsDom dom l → g.At cfg (tlvBytes hdr l ++ junk) → g.On pos.c.ti v →
      ((∀ mx mn, pos.c.kind ≠ .multi mx mn) → pos.s = []) →
      decodeOrderedInner fuel pos g ≠ .ub) := by
  induction fuel with
  | zero => exact ⟨by intros; simp [decodeOrderedOuter], by intros; simp [decodeOrderedInner]⟩
  | succ fuel ih =>
    obtain ⟨iho, ihi⟩ := ih
    constructor
    · intro cs done g l hcap hdec hd ha
      cases cs with
      | nil => simp [decodeOrderedOuter]
      | cons c cs =>
        have hcap' : ∀ c ∈ cs, 0 < c.kind.cap := fun c hc => hcap c (by simp [hc])
        have hdec' : ∀ c ∈ cs, ∀ d, c.dec = some d → ∀ p n, n ≤ p.length → d p n ≠ .ub :=
          fun c hc => hdec c (by simp [hc])
        simp only [decodeOrderedOuter]
        rcases nextByTagInst_at h c.ti hd hj ha with ⟨pre, v, post, g', e1, e2, e3, e4, e5⟩ | ⟨e1, _, e3⟩ | ⟨_, e2, e3⟩
        · rw [e3]
          have hdp : tlvsDom dom post := fun x hx => hd x (by simp [e1, hx])
          exact ihi _ g' v post hcap hdec hdp e4 e5 (fun _ => rfl)
        · rw [e3]
          have := iho cs ([] :: done) g l hcap' hdec' hd ha
          cases hk : c.kind with
          | mand => simp
          | opt => exact this
          | multi mx mn =>
            simp only
            split
            · simp
            · exact this
        · rw [e3]; simp
    · intro pos g v l hcap hdec hd ha hon hs hub
      simp only [decodeOrderedInner] at hub
      -- decode to a position that has room
      have main : ∀ p : OrdPos A, (∀ c ∈ p.c :: p.cs, 0 < c.kind.cap) →
          (∀ c ∈ p.c :: p.cs, ∀ d, c.dec = some d → ∀ p n, n ≤ p.length → d p n ≠ .ub) → g.On p.c.ti v →
          p.s.length < p.c.kind.cap → ordTarget pos g.ti ≠ .ok p := by
        intro p hcap hdec hon hroom hp
        rw [hp] at hub
        simp only [Res.bind_ok'] at hub
        have hcap' : ∀ c ∈ p.cs, 0 < c.kind.cap := fun c hc => hcap c (by simp [hc])
        have hdec' : ∀ c ∈ p.cs, ∀ d, c.dec = some d → ∀ p n, n ≤ p.length → d p n ≠ .ub :=
          fun c hc => hdec c (by simp [hc])
        cases hd1 : p.c.dec with
        | none => rw [hd1] at hub; cases hub
        | some d =>
          rw [hd1] at hub
          simp only at hub
          obtain ⟨tail, hm⟩ := hon.mem
          have hnb := hdec p.c (by simp) d hd1 g.valueMem g.len (by rw [hm, hon.len]; simp)
          cases hv : d g.valueMem g.len with
          | ub => exact hnb hv
          | err e => rw [hv] at hub; cases hub
          | abort => rw [hv] at hub; cases hub
          | diverge => rw [hv] at hub; cases hub
          | ok w =>
            rw [hv] at hub
            simp only [Res.bind_ok', storeVal, if_pos hroom] at hub
            have stop := iho p.cs ((p.s ++ [w]) :: p.done) g l hcap' hdec' hd ha
            cases hk : p.c.kind with
            | mand => rw [hk] at hub; exact stop hub
            | opt => rw [hk] at hub; exact stop hub
            | multi mx mn =>
              rw [hk] at hub
              simp only at hub
              cases hpk : peekTag g with
              | err e => rw [hpk] at hub; exact stop hub
              | abort => rw [hpk] at hub; cases hub
              | diverge => rw [hpk] at hub; cases hub
              | ub =>
                rcases peekTag_returns' h ha.cfg ha.window with ⟨t, ht⟩ | ⟨e, he⟩
                · rw [ht] at hpk; cases hpk
                · rw [he] at hpk; cases hpk
              | ok ti =>
                rw [hpk] at hub
                simp only at hub
                split at hub
                · exact stop hub
                · rename_i hcmp
                  have hti : ti = p.c.ti := by
                    have : ti.cmp g.ti = 0 := Classical.byContradiction hcmp
                    rw [TagInst.cmp_eq_zero.mp this, hon.ti]
                  cases l with
                  | nil =>
                    simp only [tlvBytes, List.nil_append] at ha
                    rcases hj with rfl | hj
                    · rw [peekTag_done ha] at hpk; simp at hpk
                    · obtain ⟨g', hg⟩ := ha.bad h hj
                      rw [hg] at hub; simp at hub
                  | cons x l =>
                    obtain ⟨t, v2⟩ := x
                    have ha' : g.At cfg (hdr t v2.length ++ v2 ++ (tlvBytes hdr l ++ junk)) := by
                      simpa [tlvBytes] using ha
                    have hdx := hd (t, v2) (by simp)
                    have hpk' := peekTag_at h hdx ha'
                    rw [hpk] at hpk'
                    simp only [Res.ok.injEq] at hpk'
                    obtain ⟨g', h1, h2, h3, h4, h5, _, _, _, h9, _⟩ := Load.At.next h hdx ha'
                    rw [h1] at hub
                    simp only at hub
                    exact ihi { p with s := p.s ++ [w] } g' v2 l hcap hdec (fun y hy => hd y (by simp [hy])) h2
                      ⟨by rw [h3, ← hpk', hti], h5, h9⟩ (fun hab => absurd hk (hab _ _)) hub
      cases ht : ordTarget pos g.ti with
      | err e => rw [ht] at hub; cases hub
      | abort => rw [ht] at hub; cases hub
      | diverge => rw [ht] at hub; cases hub
      | ub =>
        unfold ordTarget at ht
        cases hk : pos.c.kind with
        | mand => rw [hk] at ht; cases ht
        | opt => rw [hk] at ht; cases ht
        | multi mx mn =>
          rw [hk] at ht
          simp only at ht
          split at ht
          · split at ht <;> cases ht
          · cases ht
      | ok p =>
        have ht' := ht
        unfold ordTarget at ht
        cases hk : pos.c.kind with
        | mand =>
          rw [hk] at ht; cases ht
          exact main pos hcap hdec hon (by rw [hs (by simp [hk])]; exact hcap _ (by simp)) ht'
        | opt =>
          rw [hk] at ht; cases ht
          exact main pos hcap hdec hon (by rw [hs (by simp [hk])]; exact hcap _ (by simp)) ht'
        | multi mx mn =>
          rw [hk] at ht
          simp only at ht
          split at ht
          · cases hfl : findLater g.ti pos.cs with
            | none => rw [hfl] at ht; cases ht
            | some r =>
              obtain ⟨k, c', cs'⟩ := r
              rw [hfl] at ht
              obtain ⟨mid, m1, m2, m3⟩ := findLater_spec hfl
              have hsub : ∀ c ∈ c' :: cs', c ∈ pos.c :: pos.cs := by
                intro c hc
                rw [m1]
                simp only [List.mem_cons] at hc
                simp only [List.mem_cons, List.mem_append]
                exact .inr (.inr hc)
              have hon' : g.On c'.ti v := ⟨m3.symm, hon.len, hon.mem⟩
              cases ht
              exact main { c := c', s := [], cs := cs', done := List.replicate k [] ++ pos.s :: pos.done }
                (fun c hc => hcap c (hsub c hc)) (fun c hc => hdec c (hsub c hc)) hon'
                (hcap c' (hsub c' (by simp))) ht'
          · rename_i hlt
            cases ht
            exact main pos hcap hdec hon (by rw [hk]; simp only [Kind.cap]; omega) ht'

theorem decodeOrdered_no_ub (h : cfg.Lawful hdr dom) (codings : List (Coding A)) (g : Load) (hc : g.cfg = cfg)
    (hw : g.srcLen ≤ g.mem.length) (hcap : ∀ c ∈ codings, 0 < c.kind.cap)
    (hdec : ∀ c ∈ codings, ∀ d, c.dec = some d → ∀ p n, n ≤ p.length → d p n ≠ .ub) :
    decodeOrdered codings g ≠ .ub := by
  obtain ⟨l, junk, e, d, j⟩ := parse_total h _ (g.mem.take g.srcLen) (Nat.le_refl _)
  have ha : g.start.At cfg (tlvBytes hdr l ++ junk) := by
    refine ⟨hc, hw, ?_, ?_⟩
    · simp [Load.pos, Load.start]
    · rw [← e]; simp [Load.rest, Load.pos, Load.start]
  exact (ordered_no_ub h junk j _).1 codings [] g.start l hcap hdec d ha

end
end Verif
