/-
Lemmas about user defined TL formats: the lemmas about the two formats of the library (GtlvLemmas, DecEncLemmas, EncLemmas,
OrdLemmas) with the weaker assumptions `Loads` and `Stores`.
-/
import Verif.OrdSpec
import Verif.SpecFormat

namespace Verif.Format
open Verif Spec

variable {A : Type} {cfg : Cfg} {hdr : TagInst → Nat → List UInt8} {dom : TagInst → Nat → Prop}

theorem Load.At.next (h : Loads cfg hdr dom) {g : Load} {ti : TagInst} {v rest : List UInt8}
    (hd : dom ti v.length) (ha : g.At cfg (hdr ti v.length ++ v ++ rest)) :
    ∃ g', loadNext g = .ok g' ∧ g'.At cfg rest ∧ g'.ti = ti ∧ g'.val = some (g.pos + (hdr ti v.length).length) ∧
      g'.len = v.length ∧ g'.mem = g.mem ∧ g'.srcLen = g.srcLen ∧
      g'.valueBytes = v ∧ (∃ tail, g'.valueMem = v ++ tail) ∧ g'.pos = g.pos + (hdr ti v.length).length + v.length ∧
      g'.valueMem = v ++ (rest ++ g.mem.drop g.srcLen) := by
  obtain ⟨hne, hmin⟩ := h.size ti v.length hd
  have hpos : 0 < (hdr ti v.length).length := List.length_pos_iff.2 hne
  have hl := Load.rest_length ha.window
  rw [ha.rest] at hl
  simp only [List.length_append] at hl
  have hple := ha.pos_le
  have hmem : g.mem.drop g.pos = hdr ti v.length ++ (v ++ (rest ++ g.mem.drop g.srcLen)) := by
    have := ha.rest
    unfold Load.rest at this
    have h2 : g.mem.drop g.pos = (hdr ti v.length ++ v ++ rest) ++ g.mem.drop g.srcLen := by
      rw [← this]
      conv => lhs; rw [← List.take_append_drop g.srcLen g.mem]
      rw [List.drop_append_of_le_length (by simp; have := ha.window; omega)]
    rw [h2]
    simp
  have hn : loadNext g = .ok { g with ti := ti, len := v.length, val := some (g.pos + (hdr ti v.length).length) } := by
    unfold loadNext
    rw [nextTlValid_eq, if_neg (by omega), if_neg (by rw [ha.cfg]; omega)]
    simp only
    rw [if_neg (by omega), ha.cfg, hmem, h.load ti v.length _ _ hd (by omega) (by
      rw [← hmem, List.length_drop]
      have := ha.window
      omega)]
    simp only
    rw [if_neg (by omega)]
  have hv : g.mem.drop (g.pos + (hdr ti v.length).length) = v ++ (rest ++ g.mem.drop g.srcLen) := by
    rw [← List.drop_drop, hmem, List.drop_left]
  refine ⟨_, hn, ⟨ha.cfg, ha.window, ?_, ?_⟩, rfl, rfl, rfl, rfl, rfl, ?_, ?_, rfl, hv⟩
  · show g.pos + (hdr ti v.length).length + v.length ≤ g.srcLen
    omega
  · have := ha.rest
    unfold Load.rest at this ⊢
    simp only [Load.pos]
    simp only [Load.pos] at this
    rw [Nat.add_assoc, ← List.drop_drop, this, ← List.length_append, List.drop_left]
  · simp only [Load.valueBytes]; rw [hv]; simp
  · exact ⟨_, hv⟩

theorem Load.At.done {g : Load} (ha : g.At cfg []) : loadNext g = .ok { g with val := none } := by
  apply loadNext_end
  have hl := Load.rest_length ha.window
  rw [ha.rest] at hl
  have := ha.pos_le
  simp at hl; omega

theorem tlvs_length_ge (h : Loads cfg hdr dom) {l : List (TagInst × List UInt8)} (hd : tlvsDom dom l) :
    l.length ≤ (tlvBytes hdr l).length := by
  induction l with
  | nil => simp
  | cons x l ih =>
    have := ih fun y hy => hd y (by simp [hy])
    have h1 := List.length_pos_iff.2 (h.size x.1 x.2.length (hd x (by simp))).1
    simp only [tlvBytes, List.length_append, List.length_cons]
    omega

theorem loadAllLoop_tlvs (h : Loads cfg hdr dom) (l : List (TagInst × List UInt8))
    (hd : tlvsDom dom l) (g : Load) (ha : g.At cfg (tlvBytes hdr l)) (acc) (fuel : Nat)
    (hf : l.length < fuel) :
    loadAllLoop fuel g acc = .ok (acc.reverse ++ l) := by
  induction l generalizing g acc fuel with
  | nil =>
    cases fuel with
    | zero => omega
    | succ fuel => simp [loadAllLoop, Load.At.done ha]
  | cons x l ih =>
    obtain ⟨ti, v⟩ := x
    cases fuel with
    | zero => omega
    | succ fuel =>
      obtain ⟨g', h1, h2, h3, h4, _, _, _, h5, _⟩ :=
        Load.At.next h (hd (ti, v) (by simp)) (rest := tlvBytes hdr l) ha
      simp only [loadAllLoop, h1, h4]
      rw [ih (fun x hx => hd x (by simp [hx])) g' h2 _ _ (by simp at hf; omega)]
      simp [h3, h5]

/-- All outcomes of skipping to a tag. -/
theorem nextByTagLoop_at (h : Loads cfg hdr dom) (ti : TagInst) (l : List (TagInst × List UInt8))
    (junk : List UInt8) (hd : tlvsDom dom l) (hj : junk = [] ∨ False) :
    ∀ (g : Load) (fuel : Nat), g.At cfg (tlvBytes hdr l ++ junk) → l.length < fuel →
    (∃ pre v post g', l = pre ++ (ti, v) :: post ∧ (∀ x ∈ pre, x.1 ≠ ti) ∧
      nextByTagLoop ti fuel g = .ok g' ∧ g'.At cfg (tlvBytes hdr post ++ junk) ∧ g'.On ti v ∧
      g'.mem = g.mem ∧ g'.srcLen = g.srcLen) ∨
    ((∀ x ∈ l, x.1 ≠ ti) ∧ junk = [] ∧ nextByTagLoop ti fuel g = .err .ENOENT) ∨
    ((∀ x ∈ l, x.1 ≠ ti) ∧ junk ≠ [] ∧ nextByTagLoop ti fuel g = .err .EBADMSG) := by
  induction l with
  | nil =>
    intro g fuel ha hf
    cases fuel with
    | zero => omega
    | succ fuel =>
      simp only [tlvBytes, List.nil_append] at ha
      rcases hj with rfl | hj
      · exact .inr (.inl ⟨by simp, rfl, by simp [nextByTagLoop, Load.At.done ha]⟩)
      · exact hj.elim
  | cons x l ih =>
    intro g fuel ha hf
    obtain ⟨t, v⟩ := x
    cases fuel with
    | zero => omega
    | succ fuel =>
      have ha' : g.At cfg (hdr t v.length ++ v ++ (tlvBytes hdr l ++ junk)) := by
        simpa [tlvBytes] using ha
      obtain ⟨g', h1, h2, h3, h4, h5, h6, h7, _, h9, _⟩ := Load.At.next h (hd (t, v) (by simp)) ha'
      by_cases ht : t = ti
      · subst ht
        refine .inl ⟨[], v, l, g', rfl, by simp, ?_, h2, ⟨h3, h5, h9⟩, h6, h7⟩
        simp only [nextByTagLoop, h1, h4]
        rw [if_pos (TagInst.cmp_eq_zero.mpr h3)]
      · have hloop : nextByTagLoop ti (fuel + 1) g = nextByTagLoop ti fuel g' := by
          simp only [nextByTagLoop, h1, h4]
          rw [if_neg (fun hh => ht (h3.symm.trans (TagInst.cmp_eq_zero.mp hh)))]
        rw [hloop]
        rcases ih (fun y hy => hd y (by simp [hy])) g' fuel h2 (by simp at hf; omega) with
          ⟨pre, v', post, g'', e1, e2, e3, e4, e5, e6, e7⟩ | ⟨e1, e2, e3⟩ | ⟨e1, e2, e3⟩
        · refine .inl ⟨(t, v) :: pre, v', post, g'', by simp [e1], ?_, e3, e4, e5, by rw [e6, h6], by rw [e7, h7]⟩
          intro y hy
          rcases List.mem_cons.mp hy with rfl | hy
          · exact ht
          · exact e2 y hy
        · refine .inr (.inl ⟨?_, e2, e3⟩)
          intro y hy
          rcases List.mem_cons.mp hy with rfl | hy
          · exact ht
          · exact e1 y hy
        · refine .inr (.inr ⟨?_, e2, e3⟩)
          intro y hy
          rcases List.mem_cons.mp hy with rfl | hy
          · exact ht
          · exact e1 y hy

theorem nextByTagInst_at (h : Loads cfg hdr dom) (ti : TagInst) {l : List (TagInst × List UInt8)}
    {junk : List UInt8} (hd : tlvsDom dom l) (hj : junk = [] ∨ False)
    {g : Load} (ha : g.At cfg (tlvBytes hdr l ++ junk)) :
    (∃ pre v post g', l = pre ++ (ti, v) :: post ∧ (∀ x ∈ pre, x.1 ≠ ti) ∧
      nextByTagInst g ti = .ok g' ∧ g'.At cfg (tlvBytes hdr post ++ junk) ∧ g'.On ti v) ∨
    ((∀ x ∈ l, x.1 ≠ ti) ∧ junk = [] ∧ nextByTagInst g ti = .err .ENOENT g) ∨
    ((∀ x ∈ l, x.1 ≠ ti) ∧ junk ≠ [] ∧ nextByTagInst g ti = .err .EBADMSG g) := by
  have hl : l.length ≤ g.srcLen := by
    have h1 := Load.rest_length ha.window
    rw [ha.rest] at h1
    have := tlvs_length_ge h hd
    simp at h1; omega
  unfold nextByTagInst
  rcases nextByTagLoop_at h ti l junk hd hj g (g.srcLen + 2) ha (by omega) with
    ⟨pre, v, post, g', e1, e2, e3, e4, e5, _, _⟩ | ⟨e1, e2, e3⟩ | ⟨e1, e2, e3⟩
  · exact .inl ⟨pre, v, post, g', e1, e2, by rw [e3], e4, e5⟩
  · exact .inr (.inl ⟨e1, e2, by rw [e3]⟩)
  · exact .inr (.inr ⟨e1, e2, by rw [e3]⟩)

/-- Peeking at an IE. -/
theorem peekTag_at (h : Loads cfg hdr dom) {g : Load} {ti : TagInst} {v rest : List UInt8}
    (hd : dom ti v.length) (ha : g.At cfg (hdr ti v.length ++ v ++ rest)) : peekTag g = .ok ti := by
  obtain ⟨g', h1, _, h3, h4, _⟩ := Load.At.next h hd ha
  unfold loadNext at h1
  unfold peekTag
  cases hn : nextTlValid g with
  | error e => rw [hn] at h1; simp at h1
  | ok q =>
    obtain ⟨s, l⟩ := q
    rw [hn] at h1
    simp only at h1 ⊢
    split at h1
    · simp only [Out.ok.injEq] at h1; subst h1; simp at h4
    · rename_i hl
      rw [if_neg hl]
      split at h1 <;> try contradiction
      rename_i tl htl
      split at h1
      · contradiction
      · simp only [Out.ok.injEq] at h1; subst h1
        simp only at h3
        simp [h3]

/-- Decode the rest of a member's values in order, then the rest of the table. -/
theorem ordInner_eq (h : Loads cfg hdr dom) (c : Coding A) (cs : List (Coding A))
    (l : List (TagInst × List UInt8)) (hd : tlvsDom dom l) (hnot : ∀ x ∈ l, x.1 ≠ c.ti)
    (bss : List (List UInt8)) :
    ∀ (vs : List (Val A)) (bs : List UInt8) (v : Val A) (s : List (Val A)) (done) (g : Load) (fuel : Nat)
      (r : Res (Struct A)),
    All2 (Codes c) vs bss → Codes c v bs → (∀ x ∈ bss, dom c.ti x.length) →
    (match c.kind with | .multi _ _ => True | _ => vs = []) →
    s.length + 1 + vs.length ≤ c.kind.cap →
    g.On c.ti bs → g.At cfg (tlvBytes hdr (bss.map fun b => (c.ti, b)) ++ tlvBytes hdr l) →
    bss.length < fuel →
    (∀ g' : Load, g'.At cfg (tlvBytes hdr l) →
      decodeOrderedOuter (fuel - 1 - bss.length) cs ((s ++ v :: vs) :: done) g' = r) →
    decodeOrderedInner fuel { c := c, s := s, cs := cs, done := done } g = r := by
  induction bss with
  | nil =>
    intro vs bs v s done g fuel r hvs hv hdb hk hcap hon ha hf hr
    cases hvs
    cases fuel with
    | zero => simp at hf
    | succ fuel =>
      obtain ⟨_, d, hd1, hd2⟩ := hv
      obtain ⟨tail, hm⟩ := hon.mem
      simp only [List.map_nil, tlvBytes, List.nil_append] at ha
      have hr' := hr g ha
      simp only [Nat.add_sub_cancel, List.length_nil, Nat.sub_zero] at hr'
      simp only [decodeOrderedInner]
      rw [ordTarget_room _ _ (by simp at hcap ⊢; omega)]
      simp only [Res.bind_ok', hd1, hm, hon.len, hd2, storeVal]
      rw [if_pos (by simp at hcap; omega)]
      simp only [Res.bind_ok']
      cases hkk : c.kind with
      | mand => exact hr'
      | opt => exact hr'
      | multi max m =>
        simp only
        cases l with
        | nil => rw [peekTag_done (by simpa [tlvBytes] using ha)]; exact hr'
        | cons x l =>
          obtain ⟨t, w⟩ := x
          have ha' : g.At cfg (hdr t w.length ++ w ++ tlvBytes hdr l) := by simpa [tlvBytes] using ha
          rw [peekTag_at h (hd (t, w) (by simp)) ha']
          simp only
          rw [if_pos (fun hh => hnot (t, w) (by simp) (by rw [TagInst.cmp_eq_zero.mp hh, hon.ti]))]
          exact hr'
  | cons b bss ih =>
    intro vs bs v s done g fuel r hvs hv hdb hk hcap hon ha hf hr
    cases hvs with
    | @cons v' _ vs _ hv' hvs =>
    cases fuel with
    | zero => simp at hf
    | succ fuel =>
      obtain ⟨_, d, hd1, hd2⟩ := hv
      obtain ⟨tail, hm⟩ := hon.mem
      have ha' : g.At cfg (hdr c.ti b.length ++ b ++
          (tlvBytes hdr (bss.map fun b => (c.ti, b)) ++ tlvBytes hdr l)) := by
        simpa [tlvBytes] using ha
      have hdb0 : dom c.ti b.length := hdb b (by simp)
      obtain ⟨g', h1, h2, h3, h4, h5, _, _, _, h9, _⟩ := Load.At.next h hdb0 ha'
      simp only [List.length_cons] at hcap hf hr
      have := ih vs b v' (s ++ [v]) done g' fuel r hvs hv' (fun x hx => hdb x (by simp [hx]))
        (by cases hkk : c.kind <;> rw [hkk] at hk <;> simp at hk ⊢)
        (by simp; omega) ⟨h3, h5, h9⟩ h2 (by omega)
        (by
          intro g'' hg''
          have := hr g'' hg''
          rw [show fuel + 1 - 1 - (bss.length + 1) = fuel - 1 - bss.length from by omega] at this
          simpa using this)
      simp only [decodeOrderedInner]
      rw [ordTarget_room _ _ (by simp; omega)]
      simp only [Res.bind_ok', hd1, hm, hon.len, hd2, storeVal]
      rw [if_pos (by omega)]
      simp only [Res.bind_ok']
      cases hkk : c.kind with
      | mand => rw [hkk] at hk; simp at hk
      | opt => rw [hkk] at hk; simp at hk
      | multi max m =>
        simp only
        rw [peekTag_at h hdb0 ha']
        simp only
        rw [if_neg (by simp [hon.ti, TagInst.cmp_eq_zero]), h1]
        exact this

theorem decodeOrderedOuter_encodes (h : Loads cfg hdr dom) {cs : List (Coding A)} {ss : Struct A} {l}
    (he : Encodes Codes Kind.obeys cs ss l) :
    (cs.map (·.ti)).Nodup → tlvsDom dom l →
    ∀ (fuel : Nat) (done) (g : Load), g.At cfg (tlvBytes hdr l) → cs.length + l.length < fuel →
    decodeOrderedOuter fuel cs done g = .ok (done.reverse ++ ss) := by
  induction he with
  | nil =>
    intro _ _ fuel done g _ hf
    cases fuel with
    | zero => omega
    | succ fuel => simp [decodeOrderedOuter]
  | @cons c cs vs ss bss l h1 h2 he ih =>
    intro hnd hd fuel done g ha hf
    simp only [List.map_cons, List.nodup_cons] at hnd
    have hdl : tlvsDom dom l := fun x hx => hd x (by simp [hx])
    have hdb : ∀ b ∈ bss, dom c.ti b.length := fun b hb => hd (c.ti, b) (by simp [hb])
    have hnot : ∀ x ∈ l, x.1 ≠ c.ti := by
      have : ∀ {cs : List (Coding A)} {ss : Struct A} {l}, Encodes Codes Kind.obeys cs ss l → ∀ x ∈ l, x.1 ∈ cs.map (·.ti) := by
        intro cs ss l he
        induction he with
        | nil => simp
        | cons _ _ _ ih =>
          intro x hx
          simp only [List.mem_append, List.mem_map] at hx
          rcases hx with ⟨b, _, rfl⟩ | hx
          · simp
          · exact List.mem_cons_of_mem _ (ih x hx)
      intro x hx hxt
      exact hnd.1 (hxt ▸ this he x hx)
    have hcap : vs.length ≤ c.kind.cap := h1.fits.le_cap
    cases fuel with
    | zero => omega
    | succ fuel =>
      have ih' := fun fuel done g hg hf => ih hnd.2 hdl fuel done g hg hf
      cases h2 with
      | nil =>
        simp only [List.map_nil, List.nil_append] at ha hf
        rcases nextByTagInst_at h c.ti hdl (.inl rfl) (g := g) (by simpa using ha) with
          ⟨pre, v, post, g', e1, _⟩ | ⟨_, _, e3⟩ | ⟨_, e2, _⟩
        · exact absurd rfl (hnot (c.ti, v) (by simp [e1]))
        · simp only [decodeOrderedOuter, e3]
          have := ih' fuel ([] :: done) g ha (by simp at hf; omega)
          cases hk : c.kind with
          | mand => rw [hk] at h1; simp [Kind.obeys] at h1
          | opt => simpa using this
          | multi max m =>
            rw [hk] at h1; simp [Kind.obeys] at h1
            simp [h1]; simpa using this
        · simp at e2
      | @cons v b vs bss hv hvs =>
        have hdl' : tlvsDom dom ((c.ti, b) :: ((bss.map fun b => (c.ti, b)) ++ l)) := by
          simpa using hd
        rcases nextByTagInst_at h c.ti hdl' (.inl rfl) (g := g) (by simpa using ha) with
          ⟨pre, v0, post, g', e1, e2, e3, e4, e5⟩ | ⟨e1, _⟩ | ⟨_, e2, _⟩
        · cases pre with
          | cons y pre =>
            simp only [List.cons_append, List.cons.injEq] at e1
            exact absurd (by rw [← e1.1]) (e2 y (by simp))
          | nil =>
            simp only [List.nil_append, List.cons.injEq, Prod.mk.injEq, true_and] at e1
            obtain ⟨rfl, rfl⟩ := e1
            simp only [decodeOrderedOuter, e3]
            apply ordInner_eq h c cs l hdl hnot bss vs b v [] done g' fuel _ hvs hv
              (fun x hx => hdb x (by simp [hx])) _ (by simp at hcap ⊢; omega) e5
              (by simpa [tlvBytes_append] using e4) (by simp at hf; omega)
            · intro g'' hg''
              rw [ih' _ _ g'' hg'' (by simp at hf; omega)]
              simp
            · cases hk : c.kind with
              | mand => rw [hk] at h1; simp [Kind.obeys] at h1; simpa using h1
              | opt => rw [hk] at h1; simp [Kind.obeys] at h1; simpa using h1
              | multi _ _ => trivial
        · exact absurd rfl (e1 (c.ti, b) (by simp))
        · simp at e2

theorem decodeOrdered_encodes (h : Loads cfg hdr dom) {codings : List (Coding A)}
    (hnd : (codings.map (·.ti)).Nodup) {ss : Struct A} {l} (he : Encodes Codes Kind.obeys codings ss l)
    (hd : tlvsDom dom l) (tail : List UInt8) :
    decodeOrdered codings { cfg := cfg, mem := tlvBytes hdr l ++ tail, srcLen := (tlvBytes hdr l).length } = .ok ss := by
  unfold decodeOrdered
  have ha : (Load.start { cfg := cfg, mem := tlvBytes hdr l ++ tail, srcLen := (tlvBytes hdr l).length }).At cfg
      (tlvBytes hdr l) :=
    ⟨rfl, by simp [Load.start], by simp [Load.pos, Load.start], by simp [Load.rest, Load.pos, Load.start]⟩
  have hlen : l.length ≤ (tlvBytes hdr l).length := by
    exact tlvs_length_ge h hd
  rw [decodeOrderedOuter_encodes h he hnd hd _ _ _ ha (by simp only; omega)]
  simp

theorem loop_eq (h : Loads cfg hdr dom) (codings : List (Coding A))
    (l : List (TagInst × List UInt8)) (junk : List UInt8) (hd : tlvsDom dom l)
    (hj : junk = [] ∨ False) :
    ∀ (g : Load), g.At cfg (tlvBytes hdr l ++ junk) →
    ∃ es, EvsOf es l ∧ (∀ e ∈ es, ∃ x, e.2.1.drop e.2.2 = x ++ g.mem.drop g.srcLen) ∧
      ∀ (fuel : Nat) (slots : Struct A), l.length < fuel →
      decodeUnorderedLoop codings fuel slots g =
        (decodeMany codings es slots).bind fun s => if junk = [] then .ok s else .err .EBADMSG := by
  induction l with
  | nil =>
    intro g ha
    refine ⟨[], ⟨rfl, by simp⟩, by simp, ?_⟩
    intro fuel slots hf
    cases fuel with
    | zero => omega
    | succ fuel =>
      simp only [tlvBytes, List.nil_append] at ha
      simp only [decodeMany, Res.bind, decodeUnorderedLoop]
      rcases hj with hj | hj
      · subst hj; simp [Load.At.done ha]
      · exact hj.elim
  | cons x l ih =>
    intro g ha
    obtain ⟨ti, v⟩ := x
    have ha' : g.At cfg (hdr ti v.length ++ v ++ (tlvBytes hdr l ++ junk)) := by
      simpa [tlvBytes] using ha
    obtain ⟨g', h1, h2, h3, h4, h5, h6, h7, _, _, _, h9⟩ := Load.At.next h (hd (ti, v) (by simp)) ha'
    generalize ht : (tlvBytes hdr l ++ junk ++ g.mem.drop g.srcLen) = tail at h9
    obtain ⟨es, ⟨e1, e2⟩, e4, e3⟩ := ih (fun y hy => hd y (by simp [hy])) g' h2
    refine ⟨(ti, v ++ tail, v.length) :: es, ⟨by simp [Ev.tlv, e1], ?_⟩, ?_, ?_⟩
    rotate_left
    · intro e he
      rcases List.mem_cons.mp he with rfl | he
      · exact ⟨_, by simp only [List.drop_left]; exact ht.symm⟩
      · rw [← h6, ← h7]; exact e4 e he
    rotate_right
    · intro e he
      rcases List.mem_cons.mp he with rfl | he
      · simp
      · exact e2 e he
    · intro fuel slots hf
      cases fuel with
      | zero => omega
      | succ fuel =>
        simp only [decodeUnorderedLoop, h1, h4, decodeMany]
        rw [h3, h9, h5]
        cases decodeOne codings slots ti (v ++ tail) v.length <;> simp [Res.bind]
        rw [e3 fuel _ (by simp at hf; omega)]
        rfl

/-- The same for a window that is known to be a sequence of IEs. -/
theorem decodeUnordered_of_tlvs (h : Loads cfg hdr dom) (codings : List (Coding A))
    (l : List (TagInst × List UInt8)) (hd : tlvsDom dom l) (tail : List UInt8) :
    ∃ es, EvsOf es l ∧ (∀ e ∈ es, ∃ x, e.2.1.drop e.2.2 = x ++ tail) ∧
      decodeUnordered codings { cfg := cfg, mem := tlvBytes hdr l ++ tail, srcLen := (tlvBytes hdr l).length } =
        (decodeMany codings es (emptyStruct codings)).bind fun slots =>
          (checkMandatory codings slots 0).bind fun _ => .ok slots := by
  have ha : Load.At { cfg := cfg, mem := tlvBytes hdr l ++ tail, srcLen := (tlvBytes hdr l).length } cfg
      (tlvBytes hdr l ++ []) := by
    refine ⟨rfl, by simp, by simp [Load.pos], by simp [Load.rest, Load.pos]⟩
  obtain ⟨es, h1, h0, h2⟩ := loop_eq h codings l [] hd (.inl rfl) _ ha
  refine ⟨es, h1, by simpa using h0, ?_⟩
  unfold decodeUnordered
  have hlen : l.length < (tlvBytes hdr l).length + 2 := by
    have := tlvs_length_ge h hd; omega
  simp only [Load.start]
  rw [h2 _ _ hlen]
  cases decodeMany codings es (emptyStruct codings) <;> simp [Res.bind]

/-- Round trip through unordered decoding. -/
theorem decodeUnordered_encodesWhen (h : Loads cfg hdr dom)
    {codings : List (Coding A)} (hnd : (codings.map (·.ti)).Nodup) (hmx : codings.length ≤ maxCodings)
    {F : List UInt8 → Prop} (hF : ∀ x r, F r → F (x ++ r))
    {ss : Struct A} {l} (he : Encodes (CodesWhen F) Kind.obeys codings ss l) (hd : tlvsDom dom l)
    (tail : List UInt8) (hT : F tail) :
    decodeUnordered codings { cfg := cfg, mem := tlvBytes hdr l ++ tail, srcLen := (tlvBytes hdr l).length } = .ok ss := by
  obtain ⟨es, ⟨h1, h2⟩, h0, h3⟩ := decodeUnordered_of_tlvs h codings l hd tail
  have hf : All2 (fun (x : TagInst × List UInt8) (e : Ev) => e.1 = x.1 ∧
      ∀ c ∈ codings, ∀ v, CodesWhen F c v x.2 → ∃ d, c.dec = some d ∧ d e.2.1 e.2.2 = .ok v) l es := by
    subst h1
    clear h3 he hd
    induction es with
    | nil => exact .nil
    | cons e es ih =>
      refine .cons ⟨rfl, ?_⟩ (ih (fun e he => h2 e (by simp [he])) (fun e he => h0 e (by simp [he])))
      rintro c _ v ⟨_, d, hd, hdv⟩
      refine ⟨d, hd, ?_⟩
      obtain ⟨ti, p, n⟩ := e
      have hn : n ≤ p.length := h2 (ti, p, n) (by simp)
      have := hdv (p.drop n) (by
        obtain ⟨x, hx⟩ := h0 (ti, p, n) (by simp)
        simp only at hx; rw [hx]; exact hF x tail hT)
      simp only [Ev.tlv, List.take_append_drop] at this
      rw [List.length_take, Nat.min_eq_left hn] at this
      exact this
  have := decodeMany_encodes hnd hmx he [] [] es rfl rfl hf
  rw [h3]
  simp only [List.nil_append] at this
  unfold emptyStruct
  rw [this]
  simp [checkMandatory_of codings ss 0 he.length (by omega) he.check]

theorem decodeUnordered_encodes (h : Loads cfg hdr dom)
    {codings : List (Coding A)} (hnd : (codings.map (·.ti)).Nodup) (hmx : codings.length ≤ maxCodings)
    {ss : Struct A} {l} (he : Encodes Codes Kind.obeys codings ss l) (hd : tlvsDom dom l) (tail : List UInt8) :
    decodeUnordered codings { cfg := cfg, mem := tlvBytes hdr l ++ tail, srcLen := (tlvBytes hdr l).length } = .ok ss :=
  decodeUnordered_encodesWhen (F := fun _ => True) h hnd hmx (fun _ _ _ => trivial)
    (he.mono (fun _ _ _ x => x.when) (fun _ _ x => x)) hd tail trivial

/-- One IE written with an unknown length at first. -/
theorem put_update (h : Stores cfg hdr dom) (p : Put) (b : Msgb) (ti : TagInst) (v : List UInt8) (hd : dom ti v.length)
    (hroom : b.data.length + (hdr ti v.length).length + v.length ≤ b.cap) :
    ∃ o, o.length = (hdr ti v.length).length ∧
      putTli cfg p b ti 0 = .ok ({ last := some (ti, b.data.length, b.data.length + (hdr ti v.length).length) },
        { b with data := b.data ++ o }) ∧
      putUpdateTl cfg { last := some (ti, b.data.length, b.data.length + (hdr ti v.length).length) }
        { b with data := b.data ++ o ++ v } =
        .ok ({ last := some (ti, b.data.length, b.data.length + (hdr ti v.length).length) },
          { b with data := b.data ++ (hdr ti v.length ++ v) }) := by
  obtain ⟨o, ho, hol⟩ := h.reserve ti v.length b.tailroom hd (by simp [Msgb.tailroom]; omega)
  refine ⟨o, hol, ?_, ?_⟩
  · unfold putTli
    rw [ho]
    simp [hol]
  · unfold putUpdateTl
    simp only
    have hlen : (b.data ++ o ++ v).length - (b.data.length + (hdr ti v.length).length) = v.length := by
      simp [hol]; omega
    rw [hlen, h.store _ _ _ hd (by omega)]
    simp only
    have hdrop : (b.data ++ o ++ v).drop (b.data.length + (hdr ti v.length).length) = v := by
      rw [← hol, ← List.length_append, List.drop_left]
    have htake : (b.data ++ o ++ v).take b.data.length = b.data := by
      rw [List.append_assoc, List.take_left]
    rw [hdrop, htake]
    simp

theorem encodeVals_eq (h : Stores cfg hdr dom) (c : Coding A) (vs : List (Val A)) :
    ∀ (bss : List (List UInt8)) (i : Nat) (p : Put) (b : Msgb),
    All2 (EncodesTo c) vs bss → (∀ bs ∈ bss, dom c.ti bs.length) →
    (∀ j, j < i + vs.length → c.kind.exceeds j = false) →
    b.data.length + (tlvBytes hdr (bss.map fun bs => (c.ti, bs))).length ≤ b.cap →
    ∃ p', encodeVals cfg c vs i p b =
      .ok (p', { b with data := b.data ++ tlvBytes hdr (bss.map fun bs => (c.ti, bs)) }) := by
  induction vs with
  | nil =>
    intro bss i p b hf _ _ _
    cases hf
    exact ⟨p, by simp [encodeVals, tlvBytes]⟩
  | cons v vs ih =>
    intro bss i p b hf hd hx hroom
    cases hf with
    | @cons _ bs _ bss hv hf =>
    obtain ⟨enc, he, ha⟩ := hv
    simp only [List.map_cons, tlvBytes, List.length_append] at hroom
    obtain ⟨o, hol, hput, hupd⟩ := put_update h p b c.ti bs (hd bs (by simp)) (by omega)
    have henc := ha { b with data := b.data ++ o } (by simp [hol]; omega)
    obtain ⟨p', hp'⟩ := ih bss (i + 1) { last := some (c.ti, b.data.length, b.data.length + (hdr c.ti bs.length).length) }
      { b with data := b.data ++ (hdr c.ti bs.length ++ bs) } hf
      (fun x hx => hd x (by simp [hx]))
      (fun j hj => hx j (by simp; omega))
      (by simp; omega)
    refine ⟨p', ?_⟩
    simp only [encodeVals, hput, ignoreErr]
    rw [hx i (by simp)]
    simp only [he, henc, hupd, Bool.false_eq_true, if_false]
    rw [hp']
    simp [tlvBytes]

theorem encodeTable_eq (h : Stores cfg hdr dom) {cs : List (Coding A)}
    {ss : Struct A} {l} (he : Encodes EncodesTo Kind.fits cs ss l) (hd : tlvsDom dom l) :
    ∀ (p : Put) (b : Msgb), b.data.length + (tlvBytes hdr l).length ≤ b.cap →
    ∃ p', encodeTable cfg cs ss p b = .ok (p', { b with data := b.data ++ tlvBytes hdr l }) := by
  induction he with
  | nil => intro p b _; exact ⟨p, by simp [encodeTable, tlvBytes]⟩
  | @cons c cs vs ss bss l h1 h2 _ ih =>
    intro p b hroom
    obtain ⟨m1, m2⟩ := membVals_ok h1
    rw [tlvBytes_append, List.length_append] at hroom
    have hdb : ∀ bs ∈ bss, dom c.ti bs.length := fun bs hbs =>
      hd (c.ti, bs) (by simp [hbs])
    have hv : ∃ p', encodeVals cfg c vs 0 p b =
      .ok (p', { b with data := b.data ++ tlvBytes hdr (bss.map fun bs => (c.ti, bs)) }) := by
      cases bss with
      | nil => cases h2; exact ⟨p, by simp [encodeVals, tlvBytes]⟩
      | cons bs bss =>
        exact encodeVals_eq h c vs (bs :: bss) 0 p b h2 hdb m2 (by omega)
    obtain ⟨p1, hv⟩ := hv
    obtain ⟨p2, hp2⟩ := ih (fun x hx => hd x (by simp [hx])) p1
      { b with data := b.data ++ tlvBytes hdr (bss.map fun bs => (c.ti, bs)) } (by simp; omega)
    refine ⟨p2, ?_⟩
    simp only [encodeTable, m1, hv, hp2, tlvBytes_append, List.append_assoc]

theorem gtlvsEncode_eq (h : Stores cfg hdr dom) {cs : List (Coding A)}
    {ss : Struct A} {l} (he : Encodes EncodesTo Kind.fits cs ss l) (hd : tlvsDom dom l) :
    Appends (fun b => gtlvsEncode cfg ss b (some cs)) (tlvBytes hdr l) := by
  intro b hroom
  obtain ⟨p', hp⟩ := encodeTable_eq h he hd {} b hroom
  simp [gtlvsEncode, hp, dropPut]

theorem ordered_spec (h : Loads cfg hdr dom) (fuel : Nat) :
    (∀ (cs : List (Coding A)) (done : List (List (Val A))) (g : Load) (l : List (TagInst × List UInt8)),
      (cs.map (·.ti)).Nodup → (∀ c ∈ cs, LooksOnlyAtIe c) → tlvsDom dom l → g.At cfg (tlvBytes hdr l) →
      cs.length + l.length < fuel →
      decodeOrderedOuter fuel cs done g = (inOrder cs l).bind fun s => .ok (done.reverse ++ s)) ∧
    (∀ (pos : OrdPos A) (g : Load) (v : List UInt8) (l : List (TagInst × List UInt8)),
      (pos.c.ti :: pos.cs.map (·.ti)).Nodup → (∀ c ∈ pos.c :: pos.cs, LooksOnlyAtIe c) → tlvsDom dom l →
      g.At cfg (tlvBytes hdr l) → g.On pos.c.ti v →
      ((∀ mx mn, pos.c.kind ≠ .multi mx mn) → pos.s = []) →
      pos.cs.length + l.length + 1 < fuel →
      decodeOrderedInner fuel pos g =
        (memberValues pos.c pos.s.length (v :: (l.take (runLength pos.c l)).map Prod.snd)).bind fun vs =>
        (inOrder pos.cs (l.drop (runLength pos.c l))).bind fun s => .ok (pos.done.reverse ++ (pos.s ++ vs) :: s)) := by
  induction fuel with
  | zero => exact ⟨fun _ _ _ _ _ _ _ _ h => by omega, fun _ _ _ _ _ _ _ _ _ _ h => by omega⟩
  | succ fuel ih =>
    obtain ⟨iho, ihi⟩ := ih
    constructor
    · intro cs done g l hnd hlo hd ha hf
      cases cs with
      | nil => simp [decodeOrderedOuter, inOrder]
      | cons c cs =>
        simp only [List.map_cons] at hnd
        have hnd' := (List.nodup_cons.mp hnd).2
        simp only [List.length_cons] at hf
        simp only [decodeOrderedOuter, inOrder]
        rcases nextByTagInst_at h c.ti hd (.inl rfl) (g := g) (by simpa using ha) with
          ⟨pre, v, post, g', e1, e2, e3, e4, e5⟩ | ⟨e1, _, e3⟩ | ⟨_, e2, _⟩
        · have hdp : tlvsDom dom post := fun x hx => hd x (by simp [e1, hx])
          have hl : post.length < l.length := by rw [e1]; simp; omega
          rw [e3, dropWhile_split e1 e2]
          simp only
          rw [ihi _ g' v post hnd hlo hdp (by simpa using e4) e5 (fun _ => rfl) (by simp only; omega)]
          cases memberValues c 0 (v :: (post.take (runLength c post)).map Prod.snd) with
          | ok vs => cases inOrder cs (post.drop (runLength c post)) <;> simp [Res.bind]
          | _ => rfl
        · rw [e3, dropWhile_none e1]
          simp only
          have := iho cs ([] :: done) g l hnd' (fun c hc => hlo c (by simp [hc])) hd ha (by omega)
          have step : decodeOrderedOuter fuel cs ([] :: done) g =
              ((inOrder cs l).bind fun s => Res.ok ([] :: s)).bind fun s => .ok (done.reverse ++ s) := by
            rw [this]
            cases inOrder cs l <;> simp [Res.bind]
          cases hk : c.kind with
          | mand => simp [least, Res.bind]
          | opt => simpa [least] using step
          | multi mx mn =>
            simp only
            by_cases hm : 0 < mn
            · rw [if_pos hm, if_pos (show 0 < least (.multi mx mn) from hm)]; rfl
            · rw [if_neg hm, if_neg (show ¬ 0 < least (.multi mx mn) from hm)]; exact step
        · simp at e2
    · intro pos g v l hnd hlo hd ha hon hs hf
      have hnd' := (List.nodup_cons.mp hnd)
      simp only [decodeOrderedInner]
      rw [ordTarget_distinct hon.ti hnd'.1 hs, memberValues]
      by_cases hfull : most pos.c.kind ≤ pos.s.length
      · rw [if_pos hfull, if_pos hfull]; rfl
      · rw [if_neg hfull, if_neg hfull]
        simp only [Res.bind_ok']
        cases hdec : pos.c.dec with
        | none => rfl
        | some d =>
          simp only
          obtain ⟨tail, hm⟩ := hon.mem
          rw [hm, hon.len, hlo pos.c (by simp) d hdec v tail]
          cases hv : d v v.length with
          | ok w =>
            simp only [Res.bind_ok', storeVal]
            have hcap : pos.s.length < pos.c.kind.cap := by
              have : pos.c.kind.cap = most pos.c.kind := by cases pos.c.kind <;> rfl
              omega
            rw [if_pos hcap]
            simp only [Res.bind_ok']
            have stop : ∀ l', runLength pos.c l = 0 → l' = l →
                decodeOrderedOuter fuel pos.cs ((pos.s ++ [w]) :: pos.done) g =
                ((memberValues pos.c (pos.s.length + 1) ((l.take (runLength pos.c l)).map Prod.snd)).bind fun vs =>
                  Res.ok (w :: vs)).bind fun vs =>
                (inOrder pos.cs (l.drop (runLength pos.c l))).bind fun s =>
                  .ok (pos.done.reverse ++ (pos.s ++ vs) :: s) := by
              intro _ h0 _
              rw [iho pos.cs _ g l hnd'.2 (fun c hc => hlo c (by simp [hc])) hd ha (by omega), h0]
              simp [memberValues]
            cases hk : pos.c.kind with
            | mand => exact stop l (by simp [runLength, hk]) rfl
            | opt => exact stop l (by simp [runLength, hk]) rfl
            | multi mx mn =>
              simp only
              cases l with
              | nil =>
                rw [peekTag_done (by simpa [tlvBytes] using ha)]
                exact stop [] (by simp [runLength, hk]) rfl
              | cons x l =>
                obtain ⟨t, v2⟩ := x
                have ha' : g.At cfg (hdr t v2.length ++ v2 ++ tlvBytes hdr l) := by simpa [tlvBytes] using ha
                have hdx := hd (t, v2) (by simp)
                rw [peekTag_at h hdx ha']
                simp only
                by_cases ht : t = pos.c.ti
                · rw [if_neg (by simp [hon.ti, TagInst.cmp_eq_zero, ht])]
                  obtain ⟨g', h1, h2, h3, h4, h5, _, _, _, h9, _⟩ := Load.At.next h hdx ha'
                  rw [h1]
                  simp only
                  have hrun : runLength pos.c ((t, v2) :: l) = runLength pos.c l + 1 := by
                    simp [runLength, hk, ht]
                  subst ht
                  rw [ihi { pos with s := pos.s ++ [w] } g' v2 l hnd hlo (fun y hy => hd y (by simp [hy])) h2
                    ⟨h3, h5, h9⟩ (fun hab => absurd hk (hab _ _)) (by simp only [List.length_cons] at hf ⊢; omega), hrun]
                  simp only [List.length_append, List.length_cons, List.length_nil, List.take_succ_cons, List.map_cons,
                    List.drop_succ_cons]
                  cases memberValues pos.c (pos.s.length + 0 + 1) (v2 :: (l.take (runLength pos.c l)).map Prod.snd) <;>
                    simp [Res.bind]
                · rw [if_pos (fun hh => ht (by rw [TagInst.cmp_eq_zero.mp hh, hon.ti]))]
                  exact stop ((t, v2) :: l) (by simp [runLength, hk, ht]) rfl
          | _ => rfl

theorem decodeOrdered_spec (h : Loads cfg hdr dom) {codings : List (Coding A)} (hnd : (codings.map (·.ti)).Nodup)
    (hlo : ∀ c ∈ codings, LooksOnlyAtIe c) {l : List (TagInst × List UInt8)} (hd : tlvsDom dom l) (tail : List UInt8) :
    decodeOrdered codings { cfg := cfg, mem := tlvBytes hdr l ++ tail, srcLen := (tlvBytes hdr l).length } =
      inOrder codings l := by
  unfold decodeOrdered
  have ha : (Load.start { cfg := cfg, mem := tlvBytes hdr l ++ tail, srcLen := (tlvBytes hdr l).length }).At cfg
      (tlvBytes hdr l) :=
    ⟨rfl, by simp [Load.start], by simp [Load.pos, Load.start], by simp [Load.rest, Load.pos, Load.start]⟩
  have hlen : l.length ≤ (tlvBytes hdr l).length := by
    exact tlvs_length_ge h hd
  rw [(ordered_spec h _).1 codings [] _ l hnd hlo hd ha (by simp only; omega)]
  cases inOrder codings l <;> simp [Res.bind]

end Verif.Format
