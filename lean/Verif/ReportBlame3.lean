/-
Lemmas about error reporting: unordered decoding of PFCP IEs fails with the reports that the specification says.
-/
import Verif.ReportBlame2

namespace Verif
open Spec Props

variable {A : Type}

/-! ### Where decoding a list of IEs fails -/

theorem decodeManyR_append (cs : List (RCoding A)) (a b : List Ev) : ∀ slots,
    decodeManyR cs (a ++ b) slots = (decodeManyR cs a slots).bind (decodeManyR cs b) := by
  induction a with
  | nil => intro slots; simp [decodeManyR, Rep.bind]
  | cons x a ih =>
    intro slots
    obtain ⟨ti, p, n⟩ := x
    simp only [List.cons_append, decodeManyR]
    rw [Rep.bind_assoc]
    congr 1
    funext s
    exact ih s

theorem decodeManyR_silent {cs : List (RCoding A)} (hs : ∀ c ∈ cs, Silent c) (es : List Ev) : ∀ slots b,
    (decodeManyR cs es slots).1 = .ok b → (decodeManyR cs es slots).2 = [] := by
  induction es with
  | nil => intro slots b _; rfl
  | cons e es ih =>
    intro slots
    obtain ⟨ti, p, n⟩ := e
    exact Rep.bind_silent (decodeOneR_silent hs _ _ _ _) fun s _ => ih s

theorem decodeManyR_ok {cs : List (RCoding A)} (hs : ∀ c ∈ cs, Silent c) {es : List Ev} {slots s : Struct A}
    (h : decodeMany (unreported cs) es slots = .ok s) : decodeManyR cs es slots = (.ok s, []) := by
  have h1 := decodeManyR_fst cs es slots
  rw [h] at h1
  exact Prod.ext h1 (decodeManyR_silent hs es slots s h1)

/-- The first failure. -/
theorem decodeManyR_err {cs : List (RCoding A)} (hs : ∀ c ∈ cs, Silent c) (es : List Ev) : ∀ {slots rc l},
    decodeManyR cs es slots = (.err rc, l) →
    ∃ es1 ti p n es2 s1, es = es1 ++ (ti, p, n) :: es2 ∧ decodeMany (unreported cs) es1 slots = .ok s1 ∧
      decodeOneR cs s1 ti p n = (.err rc, l) := by
  induction es with
  | nil => intro slots rc l h; cases h
  | cons e es ih =>
    intro slots rc l h
    obtain ⟨ti, p, n⟩ := e
    rw [decodeManyR] at h
    cases hx : (decodeOneR cs slots ti p n).1 with
    | ok s =>
      have hx2 := decodeOneR_silent hs slots ti p n s hx
      have e1 : decodeOneR cs slots ti p n = (.ok s, []) := Prod.ext hx hx2
      rw [e1, Rep.bind_ok] at h
      obtain ⟨es1, ti', p', n', es2, s1, h1, h2, h3⟩ := ih h
      refine ⟨(ti, p, n) :: es1, ti', p', n', es2, s1, by rw [h1]; rfl, ?_, h3⟩
      rw [decodeMany, ← decodeOneR_fst, hx]
      exact h2
    | err e =>
      refine ⟨[], ti, p, n, es, slots, rfl, rfl, ?_⟩
      rcases hy : decodeOneR cs slots ti p n with ⟨r, l'⟩
      rw [hy] at h hx
      simp only at hx
      subst hx
      exact h
    | _ =>
      rcases hy : decodeOneR cs slots ti p n with ⟨r, l'⟩
      rw [hy] at h hx
      simp only at hx
      subst hx
      cases h

/-! ### Legible IEs -/

/-- An event for an IE: the value is in memory, with a zero octet somewhere behind it. -/
structure EvAt (e : Ev) (x : Ie) : Prop where
  ti : e.1 = { tag := x.1 }
  mem : ∃ r, (0 : UInt8) ∈ r ∧ e.2.1 = x.2 ++ r
  len : e.2.2 = x.2.length

/-- Events for IEs. -/
inductive EvsAt : List Ev → List Ie → Prop
  | nil : EvsAt [] []
  | cons {e x es ies} : EvAt e x → EvsAt es ies → EvsAt (e :: es) (x :: ies)

theorem EvsAt.of {es : List Ev} {ies : List Ie} (h : EvsOf es (ies.map asIe)) {rest : List UInt8} (hz : (0 : UInt8) ∈ rest)
    (hs : ∀ e ∈ es, ∃ x, e.2.1.drop e.2.2 = x ++ rest) : EvsAt es ies := by
  obtain ⟨h1, h2⟩ := h
  induction es generalizing ies with
  | nil =>
    cases ies with
    | nil => exact .nil
    | cons x ies => simp at h1
  | cons e es ih =>
    cases ies with
    | nil => simp at h1
    | cons x ies =>
      simp only [List.map_cons, List.cons.injEq] at h1
      obtain ⟨h0, h1⟩ := h1
      refine .cons ?_ (ih (fun e he => hs e (by simp [he])) h1 (fun e he => h2 e (by simp [he])))
      obtain ⟨y, hy⟩ := hs e (by simp)
      have hl := h2 e (by simp)
      simp only [Ev.tlv, asIe, Prod.mk.injEq] at h0
      refine ⟨h0.1, ⟨y ++ rest, List.mem_append_right _ hz, ?_⟩, ?_⟩
      · rw [← hy, ← h0.2, List.take_append_drop]
      · rw [← h0.2, List.length_take]; omega

theorem EvsAt.split {es1 : List Ev} {e : Ev} {es2 : List Ev} : ∀ {ies : List Ie}, EvsAt (es1 ++ e :: es2) ies →
    ∃ i1 x i2, ies = i1 ++ x :: i2 ∧ EvsAt es1 i1 ∧ EvAt e x ∧ EvsAt es2 i2 := by
  induction es1 with
  | nil =>
    intro ies h
    cases h with
    | cons h1 h2 => exact ⟨[], _, _, rfl, .nil, h1, h2⟩
  | cons e' es1 ih =>
    intro ies h
    cases h with
    | cons h1 h2 =>
      obtain ⟨i1, x, i2, rfl, a, b, c⟩ := ih h2
      exact ⟨_ :: i1, x, i2, rfl, .cons h1 a, b, c⟩

theorem EvsAt.split' {i1 : List Ie} {x : Ie} {i2 : List Ie} : ∀ {es : List Ev}, EvsAt es (i1 ++ x :: i2) →
    ∃ es1 e es2, es = es1 ++ e :: es2 ∧ EvsAt es1 i1 ∧ EvAt e x ∧ EvsAt es2 i2 := by
  induction i1 with
  | nil =>
    intro es h
    cases h with
    | cons h1 h2 => exact ⟨[], _, _, rfl, .nil, h1, h2⟩
  | cons e' i1 ih =>
    intro es h
    cases h with
    | cons h1 h2 =>
      obtain ⟨es1, x, es2, rfl, a, b, c⟩ := ih h2
      exact ⟨_ :: es1, x, es2, rfl, .cons h1 a, b, c⟩

theorem EvsAt.count {es : List Ev} {ies : List Ie} (h : EvsAt es ies) (iei : Nat) :
    countTag { tag := iei } es = timesOf iei ies := by
  induction h with
  | nil => rfl
  | @cons e x es ies h1 _ ih =>
    unfold countTag timesOf at ih ⊢
    by_cases hx : x.1 = iei
    · rw [List.filter_cons_of_pos (by simp [h1.ti, hx]), List.filter_cons_of_pos (by simp [hx]), List.length_cons,
        List.length_cons, ih]
    · rw [List.filter_cons_of_neg (by simp [h1.ti, hx]), List.filter_cons_of_neg (by simp [hx]), ih]

theorem mem_rcodings {f : Fields} {c : RCoding IeVal} (h : c ∈ f.rcodings) :
    ∃ iei kind ty, (iei, kind, ty) ∈ entries f ∧ c = ty.rcoding iei kind := by
  rw [rcodings_entries] at h
  obtain ⟨⟨iei, kind, ty⟩, h1, h2⟩ := List.mem_map.1 h
  exact ⟨iei, kind, ty, h1, h2.symm⟩

theorem rcoding_mem {f : Fields} {iei kind ty} (h : (iei, kind, ty) ∈ entries f) : ty.rcoding iei kind ∈ f.rcodings := by
  rw [rcodings_entries]; exact List.mem_map_of_mem (f := fun x => x.2.2.rcoding x.1 x.2.1) h

/-- The decoder of an entry. -/
theorem Ty.has_dec (ty : Ty) (tag : Nat) (kind : Kind) : ∃ d, (ty.coding tag kind).dec = some d := by
  cases ty <;> exact ⟨_, rfl⟩

/-- The outcome of decoding an IE that the layout has. -/
theorem decodeOneR_entry {f : Fields} (hf : Table f) {slots : Struct IeVal} (hok : StructOk f.codings slots) {e : Ev} {x : Ie}
    (he : EvAt e x) {kind ty} (hm : (x.1, kind, ty) ∈ entries f) {d} (hd : (ty.coding x.1 kind).dec = some d) :
    (usedBy { tag := x.1 } f.codings slots = most kind ∧
      decodeOneR f.rcodings slots e.1 e.2.1 e.2.2 = returnError .ENOTSUP { tag := x.1 } (.surplus (most kind))) ∨
    (usedBy { tag := x.1 } f.codings slots < most kind ∧ ∃ st : Val IeVal → Struct IeVal,
      decodeOneR f.rcodings slots e.1 e.2.1 e.2.2 =
        Rep.bind (match d e.2.1 e.2.2 with
            | .err rc => (.err rc, (ty.rcoding x.1 kind).decReports e.2.1 e.2.2 ++
                [{ ti := { tag := x.1 }, rc := rc, text := (ty.rcoding x.1 kind).complaint e.2.1 e.2.2 }])
            | r => (r, (ty.rcoding x.1 kind).decReports e.2.1 e.2.2)) fun v => (.ok (st v), [])) := by
  obtain ⟨h1, h2, h3⟩ := hf.facts
  have hc := rcoding_mem hm
  have hti := rcoding_ti ty x.1 kind
  have same : ∀ c ∈ f.rcodings, c.c.ti = e.1 → c = ty.rcoding x.1 kind := by
    intro c hc' ht
    obtain ⟨iei, kind', ty', hm', rfl⟩ := mem_rcodings hc'
    rw [(rcoding_ti ty' iei kind').1, he.ti] at ht
    simp only [TagInst.mk.injEq, and_true] at ht
    subst ht
    obtain ⟨rfl, rfl⟩ := hf.unique hm hm'
    rfl
  rcases decodeOneR_cases f.rcodings slots e.1 e.2.1 e.2.2 (by rw [f.rcodings_plain]; exact hok) h1 h2 h3 with
    ⟨a, _⟩ | ⟨c, a1, a2, a3, a4⟩ | ⟨c, a1, a2, a3, a4⟩
  · exact absurd (hti.1.trans he.ti.symm) (a _ hc)
  · have := same c a1 a2
    subst this
    rw [f.rcodings_plain, he.ti, hti.2, ← most_eq] at a3
    rw [hti.2, ← most_eq] at a4
    exact .inl ⟨a3, a4.trans (by rw [he.ti])⟩
  · have := same c a1 a2
    subst this
    rw [f.rcodings_plain, he.ti, hti.2, ← most_eq] at a3
    refine .inr ⟨a3, ?_⟩
    rcases a4 with ⟨a4, _⟩ | ⟨d', a4, st, a5⟩
    · rw [Ty.rcoding_c, hd] at a4; cases a4
    · rw [Ty.rcoding_c, hd] at a4
      cases a4
      refine ⟨st, a5.trans ?_⟩
      rw [he.ti]
      cases d e.2.1 e.2.2 <;> rfl

/-- An IE that the layout does not have is skipped. -/
theorem decodeOneR_other {f : Fields} (hf : Table f) {slots : Struct IeVal} (hok : StructOk f.codings slots) {e : Ev} {x : Ie}
    (he : EvAt e x) (hm : ∀ kind ty, (x.1, kind, ty) ∉ entries f) :
    decodeOneR f.rcodings slots e.1 e.2.1 e.2.2 = (.ok slots, []) := by
  obtain ⟨h1, h2, h3⟩ := hf.facts
  have none : ∀ c ∈ f.rcodings, c.c.ti ≠ e.1 := by
    intro c hc' ht
    obtain ⟨iei, kind', ty', hm', rfl⟩ := mem_rcodings hc'
    rw [(rcoding_ti ty' iei kind').1, he.ti] at ht
    simp only [TagInst.mk.injEq, and_true] at ht
    subst ht
    exact hm _ _ hm'
  rcases decodeOneR_cases f.rcodings slots e.1 e.2.1 e.2.2 (by rw [f.rcodings_plain]; exact hok) h1 h2 h3 with
    ⟨_, a⟩ | ⟨c, a1, a2, _⟩ | ⟨c, a1, a2, _⟩
  · exact a
  · exact absurd a2 (none c a1)
  · exact absurd a2 (none c a1)

theorem totalCap_entry {f : Fields} (hf : Table f) {iei kind ty} (hm : (iei, kind, ty) ∈ entries f) :
    totalCap { tag := iei } f.codings = most kind ∧ most kind ≠ 0 := by
  have hc : ty.coding iei kind ∈ f.codings := by
    rw [← f.rcodings_plain, ← Ty.rcoding_c]; exact List.mem_map_of_mem (rcoding_mem hm)
  obtain ⟨pre, post, e⟩ := List.append_of_mem hc
  have hn := hf.wf.nodup'
  have := Ty.coding_ti iei kind ty
  have hcap := hf.room.cap _ hc
  rw [this.2] at hcap
  refine ⟨?_, by rw [most_eq]; exact hcap⟩
  rw [e] at hn ⊢
  have := totalCap_distinct hn
  rw [(Ty.coding_ti iei kind ty).1, (Ty.coding_ti iei kind ty).2] at this
  rw [this, most_eq]

/-- The number of values in a member. -/
theorem decodeMany_used {f : Fields} (hf : Table f) {es : List Ev} {ies : List Ie} (he : EvsAt es ies) {s : Struct IeVal}
    (h : decodeMany f.codings es (emptyStruct f.codings) = .ok s) :
    StructOk f.codings s ∧ ∀ iei kind ty, (iei, kind, ty) ∈ entries f → usedBy { tag := iei } f.codings s = timesOf iei ies := by
  obtain ⟨h1, h2⟩ := decodeMany_ok es (emptyStruct_ok f.codings) h
  refine ⟨h1, fun iei kind ty hm => ?_⟩
  have ht := totalCap_entry hf hm
  rw [h2 _ (by rw [ht.1]; exact ht.2), usedBy_empty, Nat.zero_add, he.count]

theorem timesOf_append (iei : Nat) (a b : List Ie) : timesOf iei (a ++ b) = timesOf iei a + timesOf iei b := by
  simp [timesOf]

theorem timesOf_one (iei : Nat) (x : Ie) : timesOf iei [x] = if x.1 = iei then 1 else 0 := by
  unfold timesOf
  by_cases h : x.1 = iei <;> simp [h]

/-- IEs are decoded without an error exactly if they are legible. -/
theorem legible_iff {f : Fields} (hf : Table f) {es : List Ev} {ies : List Ie} (he : EvsAt es ies) (hfit : ∀ x ∈ ies, Fits16 x) :
    (∃ s, decodeMany f.codings es (emptyStruct f.codings) = .ok s) ↔ Legible f ies := by
  -- from the end of the list
  have key : ∀ n, ∀ {es : List Ev} {ies : List Ie}, ies.length = n → EvsAt es ies → (∀ x ∈ ies, Fits16 x) →
      ((∃ s, decodeMany f.codings es (emptyStruct f.codings) = .ok s) ↔ Legible f ies) := by
    intro n
    induction n with
    | zero =>
      intro es ies hn he hfit
      have : ies = [] := List.length_eq_zero_iff.1 hn
      subst this
      cases he
      exact ⟨fun _ => ⟨by simp, fun iei kind ty _ => ⟨by simp [timesOf], by simp⟩⟩, fun _ => ⟨_, rfl⟩⟩
    | succ n ih =>
      intro es ies hn he hfit
      have hne : ies ≠ [] := by rintro rfl; simp at hn
      obtain ⟨i1, x, rfl⟩ : ∃ i1 x, ies = i1 ++ [x] := ⟨_, _, (List.dropLast_concat_getLast hne).symm⟩
      obtain ⟨es1, e, es2, rfl, h1, h2, h3⟩ := he.split'
      cases h3
      have ih' := ih (by simpa using hn) h1 (fun y hy => hfit y (by simp [hy]))
      -- the step
      have step : (∃ s, decodeMany f.codings (es1 ++ [e]) (emptyStruct f.codings) = .ok s) ↔
          ∃ s1 s, decodeMany f.codings es1 (emptyStruct f.codings) = .ok s1 ∧
            (decodeOneR f.rcodings s1 e.1 e.2.1 e.2.2).1 = .ok s := by
        simp only [decodeMany_append, Res.bind_eq_ok_iff, decodeOneR_fst, f.rcodings_plain]
        constructor
        · rintro ⟨s, s1, a, b⟩
          obtain ⟨ti, p, m⟩ := e
          simp only [decodeMany, Res.bind_eq_ok_iff] at b
          obtain ⟨s2, b1, b2⟩ := b
          exact ⟨s1, s2, a, b1⟩
        · rintro ⟨s1, s, a, b⟩
          obtain ⟨ti, p, m⟩ := e
          exact ⟨s, s1, a, by simp only [decodeMany, Res.bind_eq_ok_iff]; exact ⟨s, b, rfl⟩⟩
      have legible1 : Legible f (i1 ++ [x]) ↔ Legible f i1 ∧
          ∀ kind ty, (x.1, kind, ty) ∈ entries f → timesOf x.1 i1 < most kind ∧ ∃ y, ValueMeans ty x.2 y := by
        constructor
        · rintro ⟨a, b⟩
          refine ⟨⟨fun y hy => a y (by simp [hy]), fun iei kind ty hm => ?_⟩, fun kind ty hm => ?_⟩
          · obtain ⟨b1, b2⟩ := b iei kind ty hm
            rw [timesOf_append] at b1
            exact ⟨by omega, fun v hv => b2 v (by simp [hv])⟩
          · obtain ⟨b1, b2⟩ := b x.1 kind ty hm
            rw [timesOf_append, timesOf_one, if_pos rfl] at b1
            exact ⟨by omega, b2 x.2 (by simp)⟩
        · rintro ⟨⟨a, b⟩, c⟩
          refine ⟨hfit, fun iei kind ty hm => ?_⟩
          obtain ⟨b1, b2⟩ := b iei kind ty hm
          rw [timesOf_append, timesOf_one]
          by_cases hx : x.1 = iei
          · subst hx
            obtain ⟨c1, c2⟩ := c kind ty hm
            rw [if_pos rfl]
            refine ⟨by omega, fun v hv => ?_⟩
            rcases List.mem_append.1 hv with hv | hv
            · exact b2 v hv
            · have := List.mem_singleton.1 hv
              rw [← this] at c2; exact c2
          · rw [if_neg hx]
            refine ⟨by omega, fun v hv => ?_⟩
            rcases List.mem_append.1 hv with hv | hv
            · exact b2 v hv
            · have := List.mem_singleton.1 hv
              rw [← this] at hx; exact absurd rfl hx
      rw [step, legible1, ← ih']
      -- one IE
      have one : ∀ s1, decodeMany f.codings es1 (emptyStruct f.codings) = .ok s1 →
          ((∃ s, (decodeOneR f.rcodings s1 e.1 e.2.1 e.2.2).1 = .ok s) ↔
            ∀ kind ty, (x.1, kind, ty) ∈ entries f → timesOf x.1 i1 < most kind ∧ ∃ y, ValueMeans ty x.2 y) := by
        intro s1 hs1
        obtain ⟨hok, hu⟩ := decodeMany_used hf h1 hs1
        by_cases hm : ∃ kind ty, (x.1, kind, ty) ∈ entries f
        · obtain ⟨kind, ty, hm⟩ := hm
          obtain ⟨d, hd⟩ := Ty.has_dec ty x.1 kind
          obtain ⟨w1, w2⟩ := entries_wf f hf.wf hf.room _ hm
          obtain ⟨r, hz, hr⟩ := h2.mem
          have hval : ∀ y, d e.2.1 e.2.2 = .ok y ↔ ValueMeans ty x.2 y := by
            intro y
            rw [hr, h2.len]
            exact Ty.means_at ty x.1 kind w1 w2 hd x.2 r hz y
          have huse := hu x.1 kind ty hm
          rcases decodeOneR_entry hf hok h2 hm hd with ⟨a, b⟩ | ⟨a, st, b⟩
          · rw [b]
            constructor
            · rintro ⟨s, hs⟩; cases hs
            · intro h
              have := (h kind ty hm).1
              omega
          · rw [b]
            constructor
            · rintro ⟨s, hs⟩ kind' ty' hm'
              obtain ⟨rfl, rfl⟩ := hf.unique hm hm'
              refine ⟨by omega, ?_⟩
              cases hx : d e.2.1 e.2.2 with
              | ok y => exact ⟨y, (hval y).1 hx⟩
              | _ => rw [hx] at hs; cases hs
            · intro h
              obtain ⟨_, y, hy⟩ := h kind ty hm
              rw [(hval y).2 hy]
              exact ⟨st y, rfl⟩
        · rw [decodeOneR_other hf hok h2 (fun kind ty h => hm ⟨kind, ty, h⟩)]
          exact ⟨fun _ kind ty h => absurd ⟨kind, ty, h⟩ hm, fun _ => ⟨s1, rfl⟩⟩
      constructor
      · rintro ⟨s1, s, a, b⟩
        exact ⟨⟨s1, a⟩, (one s1 a).1 ⟨s, b⟩⟩
      · rintro ⟨⟨s1, a⟩, b⟩
        obtain ⟨s, hs⟩ := (one s1 a).2 b
        exact ⟨s1, s, a, hs⟩
  exact key _ rfl he hfit

end Verif
