/-
Lemmas about ordered decoding, nested tables and termination of the engine.
-/
import Verif.EncLemmas

namespace Verif
variable {A : Type}

section Ord
variable {cfg : Cfg} {hdr : TagInst → Nat → List UInt8} {dom : TagInst → Nat → Prop}

/-- The loader points at an IE with tag `ti` and value `v`. -/
structure Load.On (g : Load) (ti : TagInst) (v : List UInt8) : Prop where
  ti : g.ti = ti
  len : g.len = v.length
  mem : ∃ tail, g.valueMem = v ++ tail

/-- All outcomes of skipping to a tag. -/
theorem nextByTagLoop_at (h : cfg.Lawful hdr dom) (ti : TagInst) (l : List (TagInst × List UInt8))
    (junk : List UInt8) (hd : tlvsDom dom l) (hj : junk = [] ∨ BadRest cfg hdr dom junk) :
    ∀ (g : Load) (fuel : Nat), g.At cfg (tlvBytes hdr l ++ junk) → l.length < fuel →
    (∃ pre v post g', l = pre ++ (ti, v) :: post ∧ (∀ x ∈ pre, x.1 ≠ ti) ∧
      nextByTagLoop ti fuel g = .ok g' ∧ g'.At cfg (tlvBytes hdr post ++ junk) ∧ g'.On ti v ∧
      g'.mem = g.mem ∧ g'.srcLen = g.srcLen) ∨
    ((∀ x ∈ l, x.1 ≠ ti) ∧ junk = [] ∧ nextByTagLoop ti fuel g = .err .ENOENT) ∨
    ((∀ x ∈ l, x.1 ≠ ti) ∧ junk ≠ [] ∧ nextByTagLoop ti fuel g = .err .EBADMSG) := by
  induction l with
  | nil =>
    intro g fuel ha hf
    cases fuel with
    | zero => omega
    | succ fuel =>
      simp only [tlvBytes, List.nil_append] at ha
      rcases hj with rfl | hj
      · exact .inr (.inl ⟨by simp, rfl, by simp [nextByTagLoop, Load.At.done h ha]⟩)
      · obtain ⟨g', hg⟩ := ha.bad h hj
        exact .inr (.inr ⟨by simp, hj.1, by simp [nextByTagLoop, hg]⟩)
  | cons x l ih =>
    intro g fuel ha hf
    obtain ⟨t, v⟩ := x
    cases fuel with
    | zero => omega
    | succ fuel =>
      have ha' : g.At cfg (hdr t v.length ++ v ++ (tlvBytes hdr l ++ junk)) := by
        simpa [tlvBytes] using ha
      obtain ⟨g', h1, h2, h3, h4, h5, h6, h7, _, h9, _⟩ := Load.At.next h (hd (t, v) (by simp)) ha'
      by_cases ht : t = ti
      · subst ht
        refine .inl ⟨[], v, l, g', rfl, by simp, ?_, h2, ⟨h3, h5, h9⟩, h6, h7⟩
        simp only [nextByTagLoop, h1, h4]
        rw [if_pos (TagInst.cmp_eq_zero.mpr h3)]
      · have hloop : nextByTagLoop ti (fuel + 1) g = nextByTagLoop ti fuel g' := by
          simp only [nextByTagLoop, h1, h4]
          rw [if_neg (fun hh => ht (h3.symm.trans (TagInst.cmp_eq_zero.mp hh)))]
        rw [hloop]
        rcases ih (fun y hy => hd y (by simp [hy])) g' fuel h2 (by simp at hf; omega) with
          ⟨pre, v', post, g'', e1, e2, e3, e4, e5, e6, e7⟩ | ⟨e1, e2, e3⟩ | ⟨e1, e2, e3⟩
        · refine .inl ⟨(t, v) :: pre, v', post, g'', by simp [e1], ?_, e3, e4, e5, by rw [e6, h6], by rw [e7, h7]⟩
          intro y hy
          rcases List.mem_cons.mp hy with rfl | hy
          · exact ht
          · exact e2 y hy
        · refine .inr (.inl ⟨?_, e2, e3⟩)
          intro y hy
          rcases List.mem_cons.mp hy with rfl | hy
          · exact ht
          · exact e1 y hy
        · refine .inr (.inr ⟨?_, e2, e3⟩)
          intro y hy
          rcases List.mem_cons.mp hy with rfl | hy
          · exact ht
          · exact e1 y hy

theorem At_length_le (h : cfg.Lawful hdr dom) {g : Load} {l junk} (ha : g.At cfg (tlvBytes hdr l ++ junk)) :
    l.length ≤ g.srcLen - g.pos := by
  have h1 := Load.rest_length ha.window
  rw [ha.rest] at h1
  have h4 := tlvBytes_length_ge h l
  have := h.tlMin_pos
  have : l.length ≤ l.length * cfg.tlMin := Nat.le_mul_of_pos_right _ this
  simp at h1; omega

theorem nextByTagInst_at (h : cfg.Lawful hdr dom) (ti : TagInst) {l : List (TagInst × List UInt8)}
    {junk : List UInt8} (hd : tlvsDom dom l) (hj : junk = [] ∨ BadRest cfg hdr dom junk)
    {g : Load} (ha : g.At cfg (tlvBytes hdr l ++ junk)) :
    (∃ pre v post g', l = pre ++ (ti, v) :: post ∧ (∀ x ∈ pre, x.1 ≠ ti) ∧
      nextByTagInst g ti = .ok g' ∧ g'.At cfg (tlvBytes hdr post ++ junk) ∧ g'.On ti v) ∨
    ((∀ x ∈ l, x.1 ≠ ti) ∧ junk = [] ∧ nextByTagInst g ti = .err .ENOENT g) ∨
    ((∀ x ∈ l, x.1 ≠ ti) ∧ junk ≠ [] ∧ nextByTagInst g ti = .err .EBADMSG g) := by
  have hl := At_length_le h ha
  unfold nextByTagInst
  rcases nextByTagLoop_at h ti l junk hd hj g (g.srcLen + 2) ha (by omega) with
    ⟨pre, v, post, g', e1, e2, e3, e4, e5, _, _⟩ | ⟨e1, e2, e3⟩ | ⟨e1, e2, e3⟩
  · exact .inl ⟨pre, v, post, g', e1, e2, by rw [e3], e4, e5⟩
  · exact .inr (.inl ⟨e1, e2, by rw [e3]⟩)
  · exact .inr (.inr ⟨e1, e2, by rw [e3]⟩)

/-- Peeking at an IE. -/
theorem peekTag_at (h : cfg.Lawful hdr dom) {g : Load} {ti : TagInst} {v rest : List UInt8}
    (hd : dom ti v.length) (ha : g.At cfg (hdr ti v.length ++ v ++ rest)) : peekTag g = .ok ti := by
  obtain ⟨g', h1, _, h3, h4, _⟩ := Load.At.next h hd ha
  unfold loadNext at h1
  unfold peekTag
  cases hn : nextTlValid g with
  | error e => rw [hn] at h1; simp at h1
  | ok q =>
    obtain ⟨s, l⟩ := q
    rw [hn] at h1
    simp only at h1 ⊢
    split at h1
    · simp only [Out.ok.injEq] at h1; subst h1; simp at h4
    · rename_i hl
      rw [if_neg hl]
      split at h1 <;> try contradiction
      rename_i tl htl
      split at h1
      · contradiction
      · simp only [Out.ok.injEq] at h1; subst h1
        simp only at h3
        simp [h3]

theorem peekTag_done {g : Load} (ha : g.At cfg []) : peekTag g = .err .ENOENT := by
  have hl := Load.rest_length ha.window
  rw [ha.rest] at hl
  have := ha.pos_le
  have hp : g.pos = g.srcLen := by simp at hl; omega
  unfold peekTag
  rw [nextTlValid_eq]
  simp [hp]

/-- Peeking returns on a readable window. -/
theorem peekTag_returns' (h : cfg.Lawful hdr dom) {g : Load} (hc : g.cfg = cfg)
    (hw : g.srcLen ≤ g.mem.length) : (∃ ti, peekTag g = .ok ti) ∨ ∃ e, peekTag g = .err e := by
  subst hc
  unfold peekTag
  rw [nextTlValid_eq]
  by_cases h1 : g.pos > g.srcLen
  · rw [if_pos h1]; exact .inr ⟨_, rfl⟩
  · rw [if_neg h1]
    by_cases h2 : g.srcLen - g.pos ≠ 0 ∧ g.srcLen - g.pos < g.cfg.tlMin
    · rw [if_pos h2]; exact .inr ⟨_, rfl⟩
    · rw [if_neg h2]
      simp only
      split
      · exact .inr ⟨_, rfl⟩
      · obtain ⟨tl, l1, _⟩ := h.load (g.mem.drop g.pos) (g.srcLen - g.pos) (by simp; omega)
        rw [l1]; exact .inl ⟨_, rfl⟩

/-! ### Ordered round trip -/

theorem ordTarget_room (pos : OrdPos A) (ti : TagInst) (h : pos.s.length < pos.c.kind.cap) :
    ordTarget pos ti = .ok pos := by
  unfold ordTarget
  cases hk : pos.c.kind with
  | mand => rfl
  | opt => rfl
  | multi max m => simp only [hk, Kind.cap] at h; simp only; rw [if_neg (by omega)]

/-- Decode the rest of a member's values in order, then the rest of the table. -/
theorem ordInner_eq (h : cfg.Lawful hdr dom) (c : Coding A) (cs : List (Coding A))
    (l : List (TagInst × List UInt8)) (hd : tlvsDom dom l) (hnot : ∀ x ∈ l, x.1 ≠ c.ti)
    (bss : List (List UInt8)) :
    ∀ (vs : List (Val A)) (bs : List UInt8) (v : Val A) (s : List (Val A)) (done) (g : Load) (fuel : Nat)
      (r : Res (Struct A)),
    All2 (Codes c) vs bss → Codes c v bs → (∀ x ∈ bss, dom c.ti x.length) →
    (match c.kind with | .multi _ _ => True | _ => vs = []) →
    s.length + 1 + vs.length ≤ c.kind.cap →
    g.On c.ti bs → g.At cfg (tlvBytes hdr (bss.map fun b => (c.ti, b)) ++ tlvBytes hdr l) →
    bss.length < fuel →
    (∀ g' : Load, g'.At cfg (tlvBytes hdr l) →
      decodeOrderedOuter (fuel - 1 - bss.length) cs ((s ++ v :: vs) :: done) g' = r) →
    decodeOrderedInner fuel { c := c, s := s, cs := cs, done := done } g = r := by
  induction bss with
  | nil =>
    intro vs bs v s done g fuel r hvs hv hdb hk hcap hon ha hf hr
    cases hvs
    cases fuel with
    | zero => simp at hf
    | succ fuel =>
      obtain ⟨_, d, hd1, hd2⟩ := hv
      obtain ⟨tail, hm⟩ := hon.mem
      simp only [List.map_nil, tlvBytes, List.nil_append] at ha
      have hr' := hr g ha
      simp only [Nat.add_sub_cancel, List.length_nil, Nat.sub_zero] at hr'
      simp only [decodeOrderedInner]
      rw [ordTarget_room _ _ (by simp at hcap ⊢; omega)]
      simp only [Res.bind_ok', hd1, hm, hon.len, hd2, storeVal]
      rw [if_pos (by simp at hcap; omega)]
      simp only [Res.bind_ok']
      cases hkk : c.kind with
      | mand => exact hr'
      | opt => exact hr'
      | multi max m =>
        simp only
        cases l with
        | nil => rw [peekTag_done (by simpa [tlvBytes] using ha)]; exact hr'
        | cons x l =>
          obtain ⟨t, w⟩ := x
          have ha' : g.At cfg (hdr t w.length ++ w ++ tlvBytes hdr l) := by simpa [tlvBytes] using ha
          rw [peekTag_at h (hd (t, w) (by simp)) ha']
          simp only
          rw [if_pos (fun hh => hnot (t, w) (by simp) (by rw [TagInst.cmp_eq_zero.mp hh, hon.ti]))]
          exact hr'
  | cons b bss ih =>
    intro vs bs v s done g fuel r hvs hv hdb hk hcap hon ha hf hr
    cases hvs with
    | @cons v' _ vs _ hv' hvs =>
    cases fuel with
    | zero => simp at hf
    | succ fuel =>
      obtain ⟨_, d, hd1, hd2⟩ := hv
      obtain ⟨tail, hm⟩ := hon.mem
      have ha' : g.At cfg (hdr c.ti b.length ++ b ++
          (tlvBytes hdr (bss.map fun b => (c.ti, b)) ++ tlvBytes hdr l)) := by
        simpa [tlvBytes] using ha
      have hdb0 : dom c.ti b.length := hdb b (by simp)
      obtain ⟨g', h1, h2, h3, h4, h5, _, _, _, h9, _⟩ := Load.At.next h hdb0 ha'
      simp only [List.length_cons] at hcap hf hr
      have := ih vs b v' (s ++ [v]) done g' fuel r hvs hv' (fun x hx => hdb x (by simp [hx]))
        (by cases hkk : c.kind <;> rw [hkk] at hk <;> simp at hk ⊢)
        (by simp; omega) ⟨h3, h5, h9⟩ h2 (by omega)
        (by
          intro g'' hg''
          have := hr g'' hg''
          rw [show fuel + 1 - 1 - (bss.length + 1) = fuel - 1 - bss.length from by omega] at this
          simpa using this)
      simp only [decodeOrderedInner]
      rw [ordTarget_room _ _ (by simp; omega)]
      simp only [Res.bind_ok', hd1, hm, hon.len, hd2, storeVal]
      rw [if_pos (by omega)]
      simp only [Res.bind_ok']
      cases hkk : c.kind with
      | mand => rw [hkk] at hk; simp at hk
      | opt => rw [hkk] at hk; simp at hk
      | multi max m =>
        simp only
        rw [peekTag_at h hdb0 ha']
        simp only
        rw [if_neg (by simp [hon.ti, TagInst.cmp_eq_zero]), h1]
        exact this

theorem decodeOrderedOuter_encodes (h : cfg.Lawful hdr dom) {cs : List (Coding A)} {ss : Struct A} {l}
    (he : Encodes Codes Kind.obeys cs ss l) :
    (cs.map (·.ti)).Nodup → tlvsDom dom l →
    ∀ (fuel : Nat) (done) (g : Load), g.At cfg (tlvBytes hdr l) → cs.length + l.length < fuel →
    decodeOrderedOuter fuel cs done g = .ok (done.reverse ++ ss) := by
  induction he with
  | nil =>
    intro _ _ fuel done g _ hf
    cases fuel with
    | zero => omega
    | succ fuel => simp [decodeOrderedOuter]
  | @cons c cs vs ss bss l h1 h2 he ih =>
    intro hnd hd fuel done g ha hf
    simp only [List.map_cons, List.nodup_cons] at hnd
    have hdl : tlvsDom dom l := fun x hx => hd x (by simp [hx])
    have hdb : ∀ b ∈ bss, dom c.ti b.length := fun b hb => hd (c.ti, b) (by simp [hb])
    have hnot : ∀ x ∈ l, x.1 ≠ c.ti := by
      have : ∀ {cs : List (Coding A)} {ss : Struct A} {l}, Encodes Codes Kind.obeys cs ss l → ∀ x ∈ l, x.1 ∈ cs.map (·.ti) := by
        intro cs ss l he
        induction he with
        | nil => simp
        | cons _ _ _ ih =>
          intro x hx
          simp only [List.mem_append, List.mem_map] at hx
          rcases hx with ⟨b, _, rfl⟩ | hx
          · simp
          · exact List.mem_cons_of_mem _ (ih x hx)
      intro x hx hxt
      exact hnd.1 (hxt ▸ this he x hx)
    have hcap : vs.length ≤ c.kind.cap := h1.fits.le_cap
    cases fuel with
    | zero => omega
    | succ fuel =>
      have ih' := fun fuel done g hg hf => ih hnd.2 hdl fuel done g hg hf
      cases h2 with
      | nil =>
        simp only [List.map_nil, List.nil_append] at ha hf
        rcases nextByTagInst_at h c.ti hdl (.inl rfl) (g := g) (by simpa using ha) with
          ⟨pre, v, post, g', e1, _⟩ | ⟨_, _, e3⟩ | ⟨_, e2, _⟩
        · exact absurd rfl (hnot (c.ti, v) (by simp [e1]))
        · simp only [decodeOrderedOuter, e3]
          have := ih' fuel ([] :: done) g ha (by simp at hf; omega)
          cases hk : c.kind with
          | mand => rw [hk] at h1; simp [Kind.obeys] at h1
          | opt => simpa using this
          | multi max m =>
            rw [hk] at h1; simp [Kind.obeys] at h1
            simp [h1]; simpa using this
        · simp at e2
      | @cons v b vs bss hv hvs =>
        have hdl' : tlvsDom dom ((c.ti, b) :: ((bss.map fun b => (c.ti, b)) ++ l)) := by
          simpa using hd
        rcases nextByTagInst_at h c.ti hdl' (.inl rfl) (g := g) (by simpa using ha) with
          ⟨pre, v0, post, g', e1, e2, e3, e4, e5⟩ | ⟨e1, _⟩ | ⟨_, e2, _⟩
        · cases pre with
          | cons y pre =>
            simp only [List.cons_append, List.cons.injEq] at e1
            exact absurd (by rw [← e1.1]) (e2 y (by simp))
          | nil =>
            simp only [List.nil_append, List.cons.injEq, Prod.mk.injEq, true_and] at e1
            obtain ⟨rfl, rfl⟩ := e1
            simp only [decodeOrderedOuter, e3]
            apply ordInner_eq h c cs l hdl hnot bss vs b v [] done g' fuel _ hvs hv
              (fun x hx => hdb x (by simp [hx])) _ (by simp at hcap ⊢; omega) e5
              (by simpa [tlvBytes_append] using e4) (by simp at hf; omega)
            · intro g'' hg''
              rw [ih' _ _ g'' hg'' (by simp at hf; omega)]
              simp
            · cases hk : c.kind with
              | mand => rw [hk] at h1; simp [Kind.obeys] at h1; simpa using h1
              | opt => rw [hk] at h1; simp [Kind.obeys] at h1; simpa using h1
              | multi _ _ => trivial
        · exact absurd rfl (e1 (c.ti, b) (by simp))
        · simp at e2

theorem decodeOrdered_encodes (h : cfg.Lawful hdr dom) {codings : List (Coding A)}
    (hnd : (codings.map (·.ti)).Nodup) {ss : Struct A} {l} (he : Encodes Codes Kind.obeys codings ss l)
    (hd : tlvsDom dom l) (tail : List UInt8) :
    decodeOrdered codings { cfg := cfg, mem := tlvBytes hdr l ++ tail, srcLen := (tlvBytes hdr l).length } = .ok ss := by
  unfold decodeOrdered
  have ha : (Load.start { cfg := cfg, mem := tlvBytes hdr l ++ tail, srcLen := (tlvBytes hdr l).length }).At cfg
      (tlvBytes hdr l) :=
    ⟨rfl, by simp [Load.start], by simp [Load.pos, Load.start], by simp [Load.rest, Load.pos, Load.start]⟩
  have hlen : l.length ≤ (tlvBytes hdr l).length := by
    have h4 := tlvBytes_length_ge h l
    have := h.tlMin_pos
    have : l.length ≤ l.length * cfg.tlMin := Nat.le_mul_of_pos_right _ this
    omega
  rw [decodeOrderedOuter_encodes h he hnd hd _ _ _ ha (by simp only; omega)]
  simp

end Ord

/-! ### Nested tables are codecs -/

theorem nested_codes {cfg : Cfg} {hdr dom} (h : cfg.Lawful hdr dom) (hd0 : ∀ ti n, dom ti n → dom ti 0)
    (ti : TagInst) (kind : Kind) (ordered : Bool) {inner : List (Coding A)}
    (hnd : (inner.map (·.ti)).Nodup) (hmx : inner.length ≤ maxCodings) {ss : Struct A} {l}
    (he : Encodes Codes Kind.obeys inner ss l) (hd : tlvsDom dom l) :
    Codes (nestedCoding ti kind cfg ordered inner) (.node ss) (tlvBytes hdr l) := by
  refine ⟨⟨_, rfl, ?_⟩, _, rfl, ?_⟩
  · exact gtlvsEncode_eq h (he.mono (fun _ _ _ x => x.1) (fun _ _ x => x.fits)) hd hd0
  · intro tail
    simp only [gtlvsDecode]
    cases ordered with
    | false =>
      simp only [Bool.false_eq_true, if_false]
      rw [decodeUnordered_encodes h hnd hmx he hd tail]; rfl
    | true =>
      simp only [if_true]
      rw [decodeOrdered_encodes h hnd he hd tail]; rfl

/-! ### What a successful ordered decode has read -/

/-- `v` is a result of the entry's decoder for the value octets `bs`. -/
def DecodesTo (c : Coding A) (bs : List UInt8) (v : Val A) : Prop :=
  ∃ d tail, c.dec = some d ∧ d (bs ++ tail) bs.length = .ok v

/-- The struct `ss` holds, entry by entry, decoded values of the IEs in the list. If `strict`,
minimum occurrences (one, for repeated mandatory IEs) are met. -/
inductive Takes (strict : Prop) : List (Coding A) → Struct A → List (TagInst × List UInt8) → Prop where
  | nil : Takes strict [] [] []
  | cons {c cs vs ss xs l} :
      vs.length ≤ c.kind.cap →
      (strict → match c.kind with
        | .mand => vs.length = 1
        | .opt => True
        | .multi _ mandatory => 0 < mandatory → 0 < vs.length) →
      All2 (fun (x : TagInst × List UInt8) v => x.1 = c.ti ∧ DecodesTo c x.2 v) xs vs →
      Takes strict cs ss l →
      Takes strict (c :: cs) (vs :: ss) (xs ++ l)

theorem findLater_spec {ti : TagInst} {cs : List (Coding A)} {k : Nat} {c' : Coding A} {cs'}
    (h : findLater ti cs = some (k, c', cs')) :
    ∃ mid, cs = mid ++ c' :: cs' ∧ mid.length = k ∧ c'.ti = ti := by
  induction cs generalizing k with
  | nil => simp [findLater] at h
  | cons c cs ih =>
    simp only [findLater] at h
    split at h
    · rename_i hc
      simp only [Option.some.injEq, Prod.mk.injEq] at h
      obtain ⟨rfl, rfl, rfl⟩ := h
      exact ⟨[], rfl, rfl, (cmp_eq.mp hc).symm⟩
    · cases hf : findLater ti cs with
      | none => rw [hf] at h; simp at h
      | some r =>
        obtain ⟨k1, c1, cs1⟩ := r
        rw [hf] at h
        simp only [Option.map_some, Option.some.injEq, Prod.mk.injEq] at h
        obtain ⟨rfl, rfl, rfl⟩ := h
        obtain ⟨mid, e1, e2, e3⟩ := ih hf
        exact ⟨c :: mid, by simp [e1], by simp [e2], e3⟩

theorem Takes.skip {strict : Prop} (hs : ¬ strict) {cs : List (Coding A)} {ss : Struct A} {l}
    (h : Takes strict cs ss l) (mid : List (Coding A)) :
    Takes strict (mid ++ cs) (List.replicate mid.length [] ++ ss) l := by
  induction mid with
  | nil => simpa using h
  | cons c mid ih =>
    have := Takes.cons (strict := strict) (c := c) (vs := []) (xs := []) (by simp)
      (fun hh => absurd hh hs) .nil ih
    simpa [List.replicate_succ] using this

section Ord2
variable {cfg : Cfg} {hdr : TagInst → Nat → List UInt8} {dom : TagInst → Nat → Prop}

theorem ordered_takes (h : cfg.Lawful hdr dom) (strict : Prop) (junk : List UInt8)
    (hj : junk = [] ∨ BadRest cfg hdr dom junk) (fuel : Nat) :
    (∀ (cs : List (Coding A)) (done : List (List (Val A))) (g : Load) (l : List (TagInst × List UInt8))
        (s : Struct A),
      (strict → (cs.map (·.ti)).Nodup) → tlvsDom dom l → g.At cfg (tlvBytes hdr l ++ junk) →
      decodeOrderedOuter fuel cs done g = .ok s →
      ∃ new used, s = done.reverse ++ new ∧ Takes strict cs new used ∧ used.Sublist l) ∧
    (∀ (pos : OrdPos A) (g : Load) (v : List UInt8) (l : List (TagInst × List UInt8)) (s : Struct A),
      (strict → (pos.c.ti :: pos.cs.map (·.ti)).Nodup) → tlvsDom dom l →
      g.At cfg (tlvBytes hdr l ++ junk) → g.On pos.c.ti v → pos.s.length ≤ pos.c.kind.cap →
      decodeOrderedInner fuel pos g = .ok s →
      ∃ vs new xs used, s = pos.done.reverse ++ (pos.s ++ vs) :: new ∧
        All2 (fun (x : TagInst × List UInt8) v => x.1 = pos.c.ti ∧ DecodesTo pos.c x.2 v) xs vs ∧
        pos.s.length + vs.length ≤ pos.c.kind.cap ∧ (strict → 0 < vs.length) ∧
        (match pos.c.kind with | .multi _ _ => True | _ => 0 < vs.length) ∧
        Takes strict pos.cs new used ∧ (xs ++ used).Sublist ((pos.c.ti, v) :: l)) := by
  induction fuel with
  | zero =>
    constructor
    · intro cs done g l s _ _ _ hs; simp [decodeOrderedOuter] at hs
    · intro pos g v l s _ _ _ _ _ hs; simp [decodeOrderedInner] at hs
  | succ fuel ih =>
    obtain ⟨iho, ihi⟩ := ih
    constructor
    · intro cs done g l s hst hd ha hs
      cases cs with
      | nil =>
        simp only [decodeOrderedOuter, Res.ok.injEq] at hs
        exact ⟨[], [], by simp [hs], .nil, List.nil_sublist _⟩
      | cons c cs =>
        have hst' : strict → (cs.map (·.ti)).Nodup := fun hh => by
          have := hst hh; simp only [List.map_cons, List.nodup_cons] at this; exact this.2
        simp only [decodeOrderedOuter] at hs
        rcases nextByTagInst_at h c.ti hd hj ha with ⟨pre, v, post, g', e1, e2, e3, e4, e5⟩ | ⟨_, _, e3⟩ | ⟨_, _, e3⟩
        · rw [e3] at hs
          simp only at hs
          have hdp : tlvsDom dom post := fun x hx => hd x (by simp [e1, hx])
          obtain ⟨vs, new, xs, used, r1, r2, r3, r4, r5, r6, r7⟩ := ihi _ g' v post s
            (by simpa using hst) hdp e4 e5 (by simp) hs
          simp only [List.nil_append, List.length_nil, Nat.zero_add] at r1 r2 r3 r4 r5 r6 r7
          refine ⟨vs :: new, xs ++ used, r1, .cons r3 ?_ r2 r6, ?_⟩
          · intro hh
            have := r4 hh
            cases hk : c.kind with
            | mand => rw [hk] at r3; simp [Kind.cap] at r3; simp only; omega
            | opt => trivial
            | multi _ _ => intro _; exact this
          · rw [e1]
            exact r7.trans (List.sublist_append_right _ _)
        · rw [e3] at hs
          have absent : decodeOrderedOuter fuel cs ([] :: done) g = .ok s →
              (strict → match c.kind with
                | .mand => ([] : List (Val A)).length = 1
                | .opt => True
                | .multi _ mandatory => 0 < mandatory → 0 < ([] : List (Val A)).length) →
              ∃ new used, s = done.reverse ++ new ∧ Takes strict (c :: cs) new used ∧ used.Sublist l := by
            intro hs2 hmin
            obtain ⟨new, used, r1, r2, r3⟩ := iho cs ([] :: done) g l s hst' hd ha hs2
            refine ⟨[] :: new, used, by simpa using r1, ?_, r3⟩
            have := Takes.cons (strict := strict) (c := c) (vs := []) (xs := []) (by simp) hmin .nil r2
            simpa using this
          cases hk : c.kind with
          | mand => rw [hk] at hs; simp at hs
          | opt => rw [hk] at hs; exact absent hs (fun _ => by rw [hk]; trivial)
          | multi max m =>
            rw [hk] at hs
            simp only at hs
            split at hs
            · simp at hs
            · rename_i hm
              exact absent hs (fun _ => by rw [hk]; intro hm2; exact absurd hm2 hm)
        · rw [e3] at hs; simp at hs
    · intro pos g v l s hst hd ha hon hcap hs
      simp only [decodeOrderedInner, Res.bind_eq_ok_iff] at hs
      obtain ⟨pos', hpos, hs⟩ := hs
      -- the position that is decoded to, with what follows from decoding there
      have main : ∀ (p : OrdPos A), (strict → (p.c.ti :: p.cs.map (·.ti)).Nodup) → g.On p.c.ti v →
          p.s.length ≤ p.c.kind.cap → p = pos' →
          ∃ vs new xs used, s = p.done.reverse ++ (p.s ++ vs) :: new ∧
            All2 (fun (x : TagInst × List UInt8) v => x.1 = p.c.ti ∧ DecodesTo p.c x.2 v) xs vs ∧
            p.s.length + vs.length ≤ p.c.kind.cap ∧ 0 < vs.length ∧
            Takes strict p.cs new used ∧ (xs ++ used).Sublist ((p.c.ti, v) :: l) := by
        rintro p hst hon _ rfl
        have hst' : strict → (p.cs.map (·.ti)).Nodup := fun hh => by
          have := hst hh; simp only [List.nodup_cons] at this; exact this.2
        cases hdec : p.c.dec with
        | none => rw [hdec] at hs; simp at hs
        | some d =>
          rw [hdec] at hs
          simp only [Res.bind_eq_ok_iff] at hs
          obtain ⟨w, hw, s1, hs1, hs⟩ := hs
          unfold storeVal at hs1
          split at hs1
          · rename_i hlt
            simp only [Res.ok.injEq] at hs1
            subst hs1
            obtain ⟨tail, hm⟩ := hon.mem
            rw [hm, hon.len] at hw
            have hdt : DecodesTo p.c v w := ⟨d, tail, hdec, hw⟩
            have stop : decodeOrderedOuter fuel p.cs ((p.s ++ [w]) :: p.done) g = .ok s →
                ∃ vs new xs used, s = p.done.reverse ++ (p.s ++ vs) :: new ∧
                  All2 (fun (x : TagInst × List UInt8) v => x.1 = p.c.ti ∧ DecodesTo p.c x.2 v) xs vs ∧
                  p.s.length + vs.length ≤ p.c.kind.cap ∧ 0 < vs.length ∧
                  Takes strict p.cs new used ∧ (xs ++ used).Sublist ((p.c.ti, v) :: l) := by
              intro hs2
              obtain ⟨new, used, r1, r2, r3⟩ := iho p.cs _ g l s hst' hd ha hs2
              refine ⟨[w], new, [(p.c.ti, v)], used, by simpa using r1, .cons ⟨rfl, hdt⟩ .nil, ?_, by simp, r2, ?_⟩
              · simp; omega
              · exact List.Sublist.cons_cons _ r3
            obtain ⟨kd, hk⟩ : ∃ k, p.c.kind = k := ⟨_, rfl⟩
            cases kd with
            | mand => rw [hk] at hs; exact stop hs
            | opt => rw [hk] at hs; exact stop hs
            | multi max m =>
              rw [hk] at hs
              simp only at hs
              cases hp : peekTag g with
              | err e => rw [hp] at hs; exact stop hs
              | abort => rw [hp] at hs; simp at hs
              | ub => rw [hp] at hs; simp at hs
              | diverge => rw [hp] at hs; simp at hs
              | ok ti =>
                rw [hp] at hs
                simp only at hs
                split at hs
                · exact stop hs
                · rename_i hcmp
                  have hti : ti = p.c.ti := by
                    have : ti.cmp g.ti = 0 := by
                      apply Classical.byContradiction; exact hcmp
                    rw [TagInst.cmp_eq_zero.mp this, hon.ti]
                  cases l with
                  | nil =>
                    simp only [tlvBytes, List.nil_append] at ha
                    rcases hj with rfl | hj
                    · rw [peekTag_done ha] at hp; simp at hp
                    · obtain ⟨g', hg⟩ := ha.bad h hj
                      rw [hg] at hs; simp at hs
                  | cons x l =>
                    obtain ⟨t, v2⟩ := x
                    have ha' : g.At cfg (hdr t v2.length ++ v2 ++ (tlvBytes hdr l ++ junk)) := by
                      simpa [tlvBytes] using ha
                    have hdx := hd (t, v2) (by simp)
                    have hpk := peekTag_at h hdx ha'
                    rw [hp] at hpk
                    simp only [Res.ok.injEq] at hpk
                    obtain ⟨g', h1, h2, h3, h4, h5, _, _, _, h9, _⟩ := Load.At.next h hdx ha'
                    rw [h1] at hs
                    simp only at hs
                    have htt : t = p.c.ti := by rw [← hpk, hti]
                    subst htt
                    obtain ⟨vs, new, xs, used, r1, r2, r3, r4, r5, r6, r7⟩ := ihi { p with s := p.s ++ [w] } g' v2 l s
                      hst (fun y hy => hd y (by simp [hy])) h2 ⟨h3, h5, h9⟩ (by simp; omega) hs
                    simp only [List.length_append, List.length_cons, List.length_nil] at r1 r2 r3 r6 r7
                    refine ⟨w :: vs, new, (p.c.ti, v) :: xs, used, by simpa using r1, .cons ⟨rfl, hdt⟩ r2, ?_, by simp, r6, ?_⟩
                    · simp only [List.length_cons]; omega
                    · exact List.Sublist.cons_cons _ r7
          · simp at hs1
      unfold ordTarget at hpos
      have noskip : pos = pos' → _ := fun e => main pos hst hon hcap e
      have wrap : (∃ vs new xs used, s = pos.done.reverse ++ (pos.s ++ vs) :: new ∧
            All2 (fun (x : TagInst × List UInt8) v => x.1 = pos.c.ti ∧ DecodesTo pos.c x.2 v) xs vs ∧
            pos.s.length + vs.length ≤ pos.c.kind.cap ∧ 0 < vs.length ∧
            Takes strict pos.cs new used ∧ (xs ++ used).Sublist ((pos.c.ti, v) :: l)) →
          ∃ vs new xs used, s = pos.done.reverse ++ (pos.s ++ vs) :: new ∧
            All2 (fun (x : TagInst × List UInt8) v => x.1 = pos.c.ti ∧ DecodesTo pos.c x.2 v) xs vs ∧
            pos.s.length + vs.length ≤ pos.c.kind.cap ∧ (strict → 0 < vs.length) ∧
            (match pos.c.kind with | .multi _ _ => True | _ => 0 < vs.length) ∧
            Takes strict pos.cs new used ∧ (xs ++ used).Sublist ((pos.c.ti, v) :: l) := by
        rintro ⟨vs, new, xs, used, r1, r2, r3, r4, r5, r6⟩
        refine ⟨vs, new, xs, used, r1, r2, r3, fun _ => r4, ?_, r5, r6⟩
        cases pos.c.kind <;> simp [r4]
      cases hk : pos.c.kind with
      | mand => rw [hk] at hpos; simp only [Res.ok.injEq] at hpos; have := wrap (noskip hpos); rwa [hk] at this
      | opt => rw [hk] at hpos; simp only [Res.ok.injEq] at hpos; have := wrap (noskip hpos); rwa [hk] at this
      | multi max m =>
        rw [hk] at hpos
        simp only at hpos
        split at hpos
        · -- full: skip forward
          cases hfl : findLater g.ti pos.cs with
          | none => rw [hfl] at hpos; simp at hpos
          | some r =>
            obtain ⟨k, c', cs'⟩ := r
            rw [hfl] at hpos
            simp only [Res.ok.injEq] at hpos
            obtain ⟨mid, m1, m2, m3⟩ := findLater_spec hfl
            have hns : ¬ strict := by
              intro hh
              have := hst hh
              simp only [List.nodup_cons] at this
              apply this.1
              rw [m1, ← hon.ti, ← m3]; simp
            have hon' : g.On c'.ti v := ⟨m3.symm, hon.len, hon.mem⟩
            have hci : c'.ti = pos.c.ti := by rw [m3, hon.ti]
            obtain ⟨vs, new, xs, used, r1, r2, r3, r4, r5, r6⟩ := main _ (fun hh => absurd hh hns) hon' (by simp) hpos
            simp only [List.nil_append, List.length_nil, Nat.zero_add] at r1 r2 r3 r5 r6
            refine ⟨[], List.replicate k [] ++ vs :: new, [], xs ++ used, ?_, .nil, by simpa [hk] using hcap,
              fun hh => absurd hh hns, trivial, ?_, ?_⟩
            · rw [r1]; simp
            · rw [m1, ← m2]
              exact Takes.skip hns (.cons r3 (fun hh => absurd hh hns) r2 r5) mid
            · simpa [hci] using r6
        · simp only [Res.ok.injEq] at hpos
          have := wrap (noskip hpos); rwa [hk] at this

/-- What a successful ordered decode has read, for any window. -/
theorem decodeOrdered_takes (h : cfg.Lawful hdr dom) (codings : List (Coding A)) (strict : Prop)
    (hst : strict → (codings.map (·.ti)).Nodup) (g : Load) (hc : g.cfg = cfg)
    (hw : g.srcLen ≤ g.mem.length) (s : Struct A) (hs : decodeOrdered codings g = .ok s) :
    ∃ l junk used, g.mem.take g.srcLen = tlvBytes hdr l ++ junk ∧ tlvsDom dom l ∧
      Takes strict codings s used ∧ used.Sublist l := by
  obtain ⟨l, junk, e, d, j⟩ := parse_total h _ (g.mem.take g.srcLen) (Nat.le_refl _)
  have ha : g.start.At cfg (tlvBytes hdr l ++ junk) := by
    refine ⟨hc, hw, ?_, ?_⟩
    · simp [Load.pos, Load.start]
    · rw [← e]; simp [Load.rest, Load.pos, Load.start]
  obtain ⟨new, used, r1, r2, r3⟩ := (ordered_takes h strict junk j _).1 codings [] g.start l s hst d ha hs
  simp only [List.reverse_nil, List.nil_append] at r1
  subst r1
  exact ⟨l, junk, used, e, d, r2, r3⟩

end Ord2

/-! ### Termination, for any configuration that consumes octets -/

/-- Every TL takes at least one octet, and loading it ends. -/
structure Cfg.Consumes (c : Cfg) : Prop where
  pos : ∀ p n tl, c.loadTl p n = .ok tl → 0 < tl.hdr
  ends : ∀ p n, c.loadTl p n ≠ .diverge

theorem loadNext_progress {g : Load} (hc : g.cfg.Consumes) :
    loadNext g ≠ .diverge ∧
    ∀ g', loadNext g = .ok g' → g'.cfg = g.cfg ∧ g'.srcLen = g.srcLen ∧
      (g'.val ≠ none → g.pos < g'.pos ∧ g'.pos ≤ g.srcLen) := by
  unfold loadNext
  rw [nextTlValid_eq]
  split
  · rename_i h; split at h
    · simp
    · split at h <;> simp
  · rename_i a b hab
    split at hab
    · simp at hab
    · split at hab
      · simp at hab
      · simp only [Except.ok.injEq, Prod.mk.injEq] at hab
        obtain ⟨rfl, rfl⟩ := hab
        split
        · refine ⟨by simp, ?_⟩
          intro g' hg'; simp only [Out.ok.injEq] at hg'; subst hg'; simp
        · cases htl : g.cfg.loadTl (g.mem.drop g.pos) (g.srcLen - g.pos) with
          | ok tl =>
            have := hc.pos _ _ _ htl
            simp only
            split
            · simp
            · rename_i hle
              refine ⟨by simp, ?_⟩
              intro g' hg'; simp only [Out.ok.injEq] at hg'; subst hg'
              refine ⟨rfl, rfl, fun _ => ?_⟩
              simp only [Load.pos] at hle ⊢
              omega
          | err e => simp
          | abort => simp
          | ub => simp
          | diverge => exact absurd htl (hc.ends _ _)

/-- Bytes left to read. -/
def Load.left (g : Load) : Nat := g.srcLen - g.pos

theorem decodeOne_no_diverge {codings : List (Coding A)} {slots : Struct A} {ti p n}
    (hdec : ∀ c ∈ codings, ∀ d, c.dec = some d → ∀ p n, d p n ≠ .diverge) :
    decodeOne codings slots ti p n ≠ .diverge := by
  unfold decodeOne
  cases findSlot ti codings slots 0 0 with
  | tooMany => simp
  | full m => simp only; split <;> simp
  | slot idx =>
    simp only
    cases hc : codings[idx]? with
    | none => simp
    | some c =>
      cases slots[idx]? with
      | none => simp
      | some s =>
        simp only
        cases hd : c.dec with
        | none => simp
        | some d =>
          simp only
          have := hdec c (List.mem_of_getElem? hc) d hd p n
          cases hv : d p n <;> simp_all
          unfold storeVal
          split
          · simp only [Res.bind_ok']; split <;> simp
          · simp

theorem decodeUnorderedLoop_ends {codings : List (Coding A)}
    (hdec : ∀ c ∈ codings, ∀ d, c.dec = some d → ∀ p n, d p n ≠ .diverge) (fuel : Nat) :
    ∀ (slots : Struct A) (g : Load), g.cfg.Consumes → g.left + 1 < fuel →
    decodeUnorderedLoop codings fuel slots g ≠ .diverge := by
  induction fuel with
  | zero => intro slots g _ hf; omega
  | succ fuel ih =>
    intro slots g hc hf
    obtain ⟨h1, h2⟩ := loadNext_progress hc
    simp only [decodeUnorderedLoop]
    cases hl : loadNext g with
    | ok g' =>
      obtain ⟨e1, e2, e3⟩ := h2 g' hl
      simp only
      cases hv : g'.val with
      | none => simp
      | some v =>
        have := e3 (by simp [hv])
        simp only
        have hd := decodeOne_no_diverge (slots := slots) (ti := g'.ti) (p := g'.valueMem) (n := g'.len) hdec
        cases hone : decodeOne codings slots g'.ti g'.valueMem g'.len with
        | ok s' =>
          simp only [Res.bind_ok']
          exact ih s' g' (by rw [e1]; exact hc) (by unfold Load.left at *; omega)
        | diverge => exact absurd hone hd
        | _ => simp
    | diverge => exact absurd hl h1
    | _ => simp

theorem nextByTagLoop_ends (ti : TagInst) (fuel : Nat) : ∀ (g : Load), g.cfg.Consumes → g.left + 1 < fuel →
    nextByTagLoop ti fuel g ≠ .diverge ∧
    ∀ g', nextByTagLoop ti fuel g = .ok g' → g'.cfg = g.cfg ∧ g'.srcLen = g.srcLen ∧ g'.left < g.left := by
  induction fuel with
  | zero => intro g _ hf; omega
  | succ fuel ih =>
    intro g hc hf
    obtain ⟨h1, h2⟩ := loadNext_progress hc
    simp only [nextByTagLoop]
    cases hl : loadNext g with
    | ok w =>
      obtain ⟨e1, e2, e3⟩ := h2 w hl
      simp only
      cases hv : w.val with
      | none => simp
      | some v =>
        have hp := e3 (by simp [hv])
        have hlt : w.left < g.left := by unfold Load.left at *; omega
        simp only
        split
        · refine ⟨by simp, ?_⟩
          intro g' hg'; simp only [Res.ok.injEq] at hg'; subst hg'; exact ⟨e1, e2, hlt⟩
        · obtain ⟨i1, i2⟩ := ih w (by rw [e1]; exact hc) (by omega)
          refine ⟨i1, ?_⟩
          intro g' hg'
          obtain ⟨j1, j2, j3⟩ := i2 g' hg'
          exact ⟨by rw [j1, e1], by rw [j2, e2], by omega⟩
    | diverge => exact absurd hl h1
    | _ => simp

theorem nextByTagInst_ends (ti : TagInst) (g : Load) (hc : g.cfg.Consumes) :
    nextByTagInst g ti ≠ .diverge ∧
    ∀ g', nextByTagInst g ti = .ok g' → g'.cfg = g.cfg ∧ g'.srcLen = g.srcLen ∧ g'.left < g.left := by
  obtain ⟨h1, h2⟩ := nextByTagLoop_ends ti (g.srcLen + 2) g hc (by unfold Load.left; omega)
  unfold nextByTagInst
  cases hl : nextByTagLoop ti (g.srcLen + 2) g with
  | ok w =>
    refine ⟨by simp, ?_⟩
    intro g' hg'; simp only [Out.ok.injEq] at hg'; subst hg'; exact h2 _ hl
  | diverge => exact absurd hl h1
  | _ => simp

theorem peekTag_ends {g : Load} (hc : g.cfg.Consumes) : peekTag g ≠ .diverge := by
  unfold peekTag
  cases nextTlValid g with
  | error e => simp
  | ok q =>
    simp only
    split
    · simp
    · cases htl : g.cfg.loadTl (g.mem.drop q.1) q.2 with
      | diverge => exact absurd htl (hc.ends _ _)
      | _ => simp

theorem findLater_length {ti : TagInst} {cs : List (Coding A)} {k c' cs'}
    (h : findLater ti cs = some (k, c', cs')) : cs'.length < cs.length ∧ c' ∈ cs ∧ ∀ x ∈ cs', x ∈ cs := by
  obtain ⟨mid, e, _, _⟩ := findLater_spec h
  subst e
  refine ⟨by simp; omega, by simp, ?_⟩
  intro x hx; simp [hx]

theorem ordered_ends {codings : List (Coding A)}
    (hdec : ∀ c ∈ codings, ∀ d, c.dec = some d → ∀ p n, d p n ≠ .diverge) (fuel : Nat) :
    (∀ (cs : List (Coding A)) (done : List (List (Val A))) (g : Load), (∀ c ∈ cs, c ∈ codings) →
      g.cfg.Consumes → cs.length + g.left < fuel → decodeOrderedOuter fuel cs done g ≠ .diverge) ∧
    (∀ (pos : OrdPos A) (g : Load), pos.c ∈ codings → (∀ c ∈ pos.cs, c ∈ codings) →
      g.cfg.Consumes → pos.cs.length + g.left + 1 < fuel → decodeOrderedInner fuel pos g ≠ .diverge) := by
  induction fuel with
  | zero => constructor <;> (intros; omega)
  | succ fuel ih =>
    obtain ⟨iho, ihi⟩ := ih
    constructor
    · intro cs done g hcs hc hf
      cases cs with
      | nil => simp [decodeOrderedOuter]
      | cons c cs =>
        have hcs' : ∀ x ∈ cs, x ∈ codings := fun x hx => hcs x (by simp [hx])
        simp only [List.length_cons] at hf
        simp only [decodeOrderedOuter]
        obtain ⟨h1, h2⟩ := nextByTagInst_ends c.ti g hc
        cases hn : nextByTagInst g c.ti with
        | ok g' =>
          obtain ⟨e1, e2, e3⟩ := h2 g' hn
          exact ihi _ g' (hcs c (by simp)) hcs' (by rw [e1]; exact hc) (by simp only; omega)
        | err e g' =>
          have hrec := iho cs ([] :: done) g hcs' hc (by omega)
          cases e <;> simp only [ne_eq, reduceCtorEq, not_false_eq_true]
          cases c.kind with
          | mand => simp
          | opt => exact hrec
          | multi max m =>
            simp only
            split
            · simp
            · exact hrec
        | diverge => exact absurd hn h1
        | _ => simp
    · intro pos g hpc hpcs hc hf
      simp only [decodeOrderedInner]
      have ht : ∀ p, ordTarget pos g.ti = .ok p → p.c ∈ codings ∧ (∀ c ∈ p.cs, c ∈ codings) ∧
          p.cs.length ≤ pos.cs.length := by
        intro p hp
        unfold ordTarget at hp
        have same : pos = p → p.c ∈ codings ∧ (∀ c ∈ p.cs, c ∈ codings) ∧ p.cs.length ≤ pos.cs.length := by
          rintro rfl; exact ⟨hpc, hpcs, Nat.le_refl _⟩
        cases hk : pos.c.kind with
        | mand => rw [hk] at hp; simp at hp; exact same hp
        | opt => rw [hk] at hp; simp at hp; exact same hp
        | multi max m =>
          rw [hk] at hp
          simp only at hp
          split at hp
          · cases hfl : findLater g.ti pos.cs with
            | none => rw [hfl] at hp; simp at hp
            | some r =>
              obtain ⟨k, c', cs'⟩ := r
              rw [hfl] at hp
              simp only [Res.ok.injEq] at hp
              obtain ⟨l1, l2, l3⟩ := findLater_length hfl
              subst hp
              exact ⟨hpcs _ l2, fun x hx => hpcs x (l3 x hx), by simp only; omega⟩
          · simp at hp; exact same hp
      have htd : ordTarget pos g.ti ≠ .diverge := by
        unfold ordTarget
        cases pos.c.kind with
        | mand => simp
        | opt => simp
        | multi max m =>
          simp only
          split
          · cases findLater g.ti pos.cs <;> simp
          · simp
      cases hto : ordTarget pos g.ti with
      | diverge => exact absurd hto htd
      | ok p =>
        obtain ⟨p1, p2, p3⟩ := ht p hto
        simp only [Res.bind_ok']
        cases hd : p.c.dec with
        | none => simp
        | some d =>
          simp only
          have hdd := hdec p.c p1 d hd g.valueMem g.len
          cases hv : d g.valueMem g.len with
          | diverge => exact absurd hv hdd
          | ok v =>
            simp only [Res.bind_ok']
            unfold storeVal
            split
            · simp only [Res.bind_ok']
              have hout := iho p.cs ((p.s ++ [v]) :: p.done) g p2 hc (by omega)
              cases hk : p.c.kind with
              | mand => exact hout
              | opt => exact hout
              | multi max m =>
                simp only
                cases hpk : peekTag g with
                | diverge => exact absurd hpk (peekTag_ends hc)
                | err e => exact hout
                | ok ti =>
                  simp only
                  split
                  · exact hout
                  · obtain ⟨h1, h2⟩ := loadNext_progress hc
                    cases hl : loadNext g with
                    | diverge => exact absurd hl h1
                    | ok g' =>
                      obtain ⟨e1, e2, e3⟩ := h2 g' hl
                      simp only
                      cases hvv : g'.val with
                      | some vv =>
                        have := e3 (by simp [hvv])
                        exact ihi _ g' p1 p2 (by rw [e1]; exact hc) (by simp only; unfold Load.left at *; omega)
                      | none =>
                        -- peek said there is an IE, so the load does not report the end
                        exfalso
                        unfold loadNext at hl
                        unfold peekTag at hpk
                        cases hn : nextTlValid g with
                        | error e => rw [hn] at hpk; simp at hpk
                        | ok q =>
                          rw [hn] at hl hpk
                          simp only at hl hpk
                          split at hpk
                          · simp at hpk
                          · rename_i hq
                            rw [if_neg hq] at hl
                            cases htl : g.cfg.loadTl (g.mem.drop q.1) q.2 with
                            | ok tl =>
                              rw [htl] at hl
                              simp only at hl
                              split at hl
                              · simp at hl
                              · simp only [Out.ok.injEq] at hl; subst hl; simp at hvv
                            | _ => rw [htl] at hpk hl; simp at hpk hl
                    | _ => simp
                | _ => simp
            · simp
          | _ => simp
      | _ => simp

end Verif
