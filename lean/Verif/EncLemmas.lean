/-
Lemmas about encoding, ordered decoding and round trips of the engine.
-/
import Verif.DecEncLemmas

namespace Verif
variable {A : Type}

/-! ### Decoders that do not look past their IE -/

/-- The decoder's outcome depends on the value octets only. -/
def Coding.Local (c : Coding A) : Prop :=
  ∀ d, c.dec = some d → ∀ v tail, d (v ++ tail) v.length = d v v.length

/-- Canonical events for a list of IEs. -/
def evs (l : List (TagInst × List UInt8)) : List Ev := l.map fun x => (x.1, x.2, x.2.length)

theorem decodeOne_congr {codings : List (Coding A)} (slots : Struct A) (ti : TagInst)
    (p p' : List UInt8) (n : Nat) (h : ∀ c ∈ codings, ∀ d, c.dec = some d → d p n = d p' n) :
    decodeOne codings slots ti p n = decodeOne codings slots ti p' n := by
  unfold decodeOne
  cases findSlot ti codings slots 0 0 with
  | tooMany => rfl
  | full m => rfl
  | slot idx =>
    simp only
    cases hc : codings[idx]? with
    | none => rfl
    | some c =>
      cases slots[idx]? with
      | none => rfl
      | some s =>
        simp only
        cases hd : c.dec with
        | none => rfl
        | some d => simp only; rw [h c (List.mem_of_getElem? hc) d hd]

theorem decodeMany_local {codings : List (Coding A)} (hloc : ∀ c ∈ codings, c.Local)
    {es : List Ev} {l : List (TagInst × List UInt8)} (h : EvsOf es l) (slots : Struct A) :
    decodeMany codings es slots = decodeMany codings (evs l) slots := by
  obtain ⟨h1, h2⟩ := h
  subst h1
  induction es generalizing slots with
  | nil => rfl
  | cons e es ih =>
    obtain ⟨ti, p, n⟩ := e
    have hn : n ≤ p.length := h2 (ti, p, n) (by simp)
    have hl : (p.take n).length = n := by simp; omega
    simp only [evs, List.map_cons, decodeMany, Ev.tlv, hl]
    have : decodeOne codings slots ti p n = decodeOne codings slots ti (p.take n) n := by
      apply decodeOne_congr
      intro c hc d hd
      have := hloc c hc d hd (p.take n) (p.drop n)
      rwa [List.take_append_drop, hl] at this
    rw [this]
    congr 1
    funext s
    exact ih s (fun e he => h2 e (by simp [he]))

/-! ### Encoding -/

/-- `enc` appends exactly `bs` when they fit. -/
def Appends (enc : Msgb → Out Msgb) (bs : List UInt8) : Prop :=
  ∀ b : Msgb, b.data.length + bs.length ≤ b.cap → enc b = .ok { b with data := b.data ++ bs }

/-- The encoder of an entry turns `v` into `bs`. -/
def EncodesTo (c : Coding A) (v : Val A) (bs : List UInt8) : Prop :=
  ∃ enc, c.enc = some enc ∧ Appends (enc v) bs

section Enc
variable {cfg : Cfg} {hdr : TagInst → Nat → List UInt8} {dom : TagInst → Nat → Prop}

theorem encodeVals_eq (h : cfg.Lawful hdr dom) (c : Coding A) (vs : List (Val A)) :
    ∀ (bss : List (List UInt8)) (i : Nat) (p : Put) (b : Msgb),
    All2 (EncodesTo c) vs bss → (∀ bs ∈ bss, dom c.ti bs.length) → dom c.ti 0 →
    (∀ j, j < i + vs.length → c.kind.exceeds j = false) →
    b.data.length + (tlvBytes hdr (bss.map fun bs => (c.ti, bs))).length ≤ b.cap →
    ∃ p', encodeVals cfg c vs i p b =
      .ok (p', { b with data := b.data ++ tlvBytes hdr (bss.map fun bs => (c.ti, bs)) }) := by
  induction vs with
  | nil =>
    intro bss i p b hf _ _ _ _
    cases hf
    exact ⟨p, by simp [encodeVals, tlvBytes]⟩
  | cons v vs ih =>
    intro bss i p b hf hd hd0 hx hroom
    cases hf with
    | @cons _ bs _ bss hv hf =>
    obtain ⟨enc, he, ha⟩ := hv
    simp only [List.map_cons, tlvBytes, List.length_append, h.hdr_len] at hroom
    have hput : putTli cfg p b c.ti 0 =
        .ok ({ last := some (c.ti, b.data.length, b.data.length + cfg.tlMin) },
          { b with data := b.data ++ hdr c.ti 0 }) := by
      unfold putTli
      rw [h.store _ _ _ hd0 (by simp [Msgb.tailroom]; omega)]
      simp [h.hdr_len]
    have henc := ha { b with data := b.data ++ hdr c.ti 0 } (by simp [h.hdr_len]; omega)
    have hupd : putUpdateTl cfg { last := some (c.ti, b.data.length, b.data.length + cfg.tlMin) }
        { b with data := b.data ++ hdr c.ti 0 ++ bs } =
        .ok ({ last := some (c.ti, b.data.length, b.data.length + cfg.tlMin) },
          { b with data := b.data ++ (hdr c.ti bs.length ++ bs) }) := by
      unfold putUpdateTl
      simp only
      have hlen : (b.data ++ hdr c.ti 0 ++ bs).length - (b.data.length + cfg.tlMin) = bs.length := by
        simp [h.hdr_len]; omega
      rw [hlen, h.store _ _ _ (hd bs (by simp)) (by omega)]
      simp only
      have hdrop : (b.data ++ hdr c.ti 0 ++ bs).drop (b.data.length + (hdr c.ti bs.length).length) = bs := by
        rw [h.hdr_len, ← h.hdr_len c.ti 0, ← List.length_append, List.drop_left]
      have htake : (b.data ++ hdr c.ti 0 ++ bs).take b.data.length = b.data := by
        rw [List.append_assoc, List.take_left]
      rw [hdrop, htake]
      simp [h.hdr_len]
    obtain ⟨p', hp'⟩ := ih bss (i + 1) { last := some (c.ti, b.data.length, b.data.length + cfg.tlMin) }
      { b with data := b.data ++ (hdr c.ti bs.length ++ bs) } hf
      (fun x hx => hd x (by simp [hx])) hd0
      (fun j hj => hx j (by simp; omega))
      (by simp [h.hdr_len]; omega)
    refine ⟨p', ?_⟩
    simp only [encodeVals, hput, ignoreErr]
    rw [hx i (by simp)]
    simp only [he, henc, hupd, Bool.false_eq_true, if_false]
    rw [hp']
    simp [tlvBytes]

end Enc

/-- How many values an entry may have when encoding: the code does not check minimums there. -/
def Kind.fits : Kind → Nat → Prop
  | .mand, n => n = 1
  | .opt, n => n ≤ 1
  | .multi max _, n => n ≤ max

/-- How many values an entry has in a struct that obeys the table. -/
def Kind.obeys : Kind → Nat → Prop
  | .mand, n => n = 1
  | .opt, n => n ≤ 1
  | .multi max mandatory, n => mandatory ≤ n ∧ n ≤ max

theorem Kind.obeys.fits {k : Kind} {n : Nat} (h : k.obeys n) : k.fits n := by
  cases k <;> simp [Kind.obeys, Kind.fits] at h ⊢ <;> omega

theorem Kind.fits.le_cap {k : Kind} {n : Nat} (h : k.fits n) : n ≤ k.cap := by
  cases k <;> simp [Kind.cap, Kind.fits] at h ⊢ <;> omega

/-- A struct and the IEs it is encoded as: per entry, its values in order, each with the entry's
tag and octets that `R` relates to the value; the number of values satisfies `N`. -/
inductive Encodes (R : Coding A → Val A → List UInt8 → Prop) (N : Kind → Nat → Prop) :
    List (Coding A) → Struct A → List (TagInst × List UInt8) → Prop where
  | nil : Encodes R N [] [] []
  | cons {c cs vs ss bss l} :
      N c.kind vs.length →
      All2 (R c) vs bss →
      Encodes R N cs ss l →
      Encodes R N (c :: cs) (vs :: ss) ((bss.map fun bs => (c.ti, bs)) ++ l)

theorem Encodes.mono {R R' : Coding A → Val A → List UInt8 → Prop} {N N' : Kind → Nat → Prop} {cs ss l}
    (hR : ∀ c v bs, R c v bs → R' c v bs) (hN : ∀ k n, N k n → N' k n)
    (h : Encodes R N cs ss l) : Encodes R' N' cs ss l := by
  induction h with
  | nil => exact .nil
  | cons h1 h2 _ ih => exact .cons (hN _ _ h1) (h2.imp (fun _ _ => hR _ _ _)) ih

theorem Encodes.length {R : Coding A → Val A → List UInt8 → Prop} {N} {cs ss l}
    (h : Encodes R N cs ss l) : ss.length = cs.length := by
  induction h with
  | nil => rfl
  | cons _ _ _ ih => simp [ih]

theorem membVals_ok {k : Kind} {vs : List (Val A)}
    (h : k.fits vs.length) :
    membVals k vs = some vs ∧ ∀ j, j < 0 + vs.length → k.exceeds j = false := by
  cases k with
  | mand =>
    simp only [Kind.fits] at h
    match vs, h with
    | [v], _ => exact ⟨rfl, by intros; rfl⟩
  | opt =>
    simp only [Kind.fits] at h
    match vs, h with
    | [], _ => exact ⟨rfl, by intros; rfl⟩
    | [v], _ => exact ⟨rfl, by intros; rfl⟩
  | multi max mandatory =>
    simp only [Kind.fits] at h
    refine ⟨by cases vs <;> rfl, ?_⟩
    intro j hj
    simp [Kind.exceeds]; omega

theorem encodeTable_eq {cfg : Cfg} {hdr dom} (h : cfg.Lawful hdr dom) {cs : List (Coding A)}
    {ss : Struct A} {l} (he : Encodes EncodesTo Kind.fits cs ss l) (hd : tlvsDom dom l)
    (hd0 : ∀ ti n, dom ti n → dom ti 0) :
    ∀ (p : Put) (b : Msgb), b.data.length + (tlvBytes hdr l).length ≤ b.cap →
    ∃ p', encodeTable cfg cs ss p b = .ok (p', { b with data := b.data ++ tlvBytes hdr l }) := by
  induction he with
  | nil => intro p b _; exact ⟨p, by simp [encodeTable, tlvBytes]⟩
  | @cons c cs vs ss bss l h1 h2 _ ih =>
    intro p b hroom
    obtain ⟨m1, m2⟩ := membVals_ok h1
    rw [tlvBytes_append, List.length_append] at hroom
    have hdb : ∀ bs ∈ bss, dom c.ti bs.length := fun bs hbs =>
      hd (c.ti, bs) (by simp [hbs])
    have hv : ∃ p', encodeVals cfg c vs 0 p b =
      .ok (p', { b with data := b.data ++ tlvBytes hdr (bss.map fun bs => (c.ti, bs)) }) := by
      cases bss with
      | nil => cases h2; exact ⟨p, by simp [encodeVals, tlvBytes]⟩
      | cons bs bss =>
        exact encodeVals_eq h c vs (bs :: bss) 0 p b h2 hdb (hd0 _ _ (hdb bs (by simp))) m2 (by omega)
    obtain ⟨p1, hv⟩ := hv
    obtain ⟨p2, hp2⟩ := ih (fun x hx => hd x (by simp [hx])) p1
      { b with data := b.data ++ tlvBytes hdr (bss.map fun bs => (c.ti, bs)) } (by simp; omega)
    refine ⟨p2, ?_⟩
    simp only [encodeTable, m1, hv, hp2, tlvBytes_append, List.append_assoc]

theorem gtlvsEncode_eq {cfg : Cfg} {hdr dom} (h : cfg.Lawful hdr dom) {cs : List (Coding A)}
    {ss : Struct A} {l} (he : Encodes EncodesTo Kind.fits cs ss l) (hd : tlvsDom dom l)
    (hd0 : ∀ ti n, dom ti n → dom ti 0) :
    Appends (fun b => gtlvsEncode cfg ss b (some cs)) (tlvBytes hdr l) := by
  intro b hroom
  obtain ⟨p', hp⟩ := encodeTable_eq h he hd hd0 {} b hroom
  simp [gtlvsEncode, hp, dropPut]

/-! ### Unordered round trip -/

/-- The codec of an entry turns `v` into `bs` and `bs` (with anything allowed by `F` behind) back
into `v`. -/
def CodesWhen (F : List UInt8 → Prop) (c : Coding A) (v : Val A) (bs : List UInt8) : Prop :=
  EncodesTo c v bs ∧ ∃ d, c.dec = some d ∧ ∀ tail, F tail → d (bs ++ tail) bs.length = .ok v

/-- The codec of an entry turns `v` into `bs` and `bs` (with anything behind) back into `v`. -/
def Codes (c : Coding A) (v : Val A) (bs : List UInt8) : Prop :=
  EncodesTo c v bs ∧ ∃ d, c.dec = some d ∧ ∀ tail, d (bs ++ tail) bs.length = .ok v

/-- Decoding the values of one entry, one after the other. -/
theorem decodeMany_entry {codings : List (Coding A)} {pre c post} (hcs : codings = pre ++ c :: post)
    (hne : ∀ x ∈ pre, x.ti ≠ c.ti) (hmx : pre.length < maxCodings) :
    ∀ (vs : List (Val A)) (es : List Ev) (spre : Struct A) (s : List (Val A)) (spost : Struct A),
    pre.length = spre.length →
    All2 (fun v (e : Ev) => e.1 = c.ti ∧ ∃ d, c.dec = some d ∧ d e.2.1 e.2.2 = .ok v) vs es →
    s.length + vs.length ≤ c.kind.cap →
    decodeMany codings es (spre ++ s :: spost) = .ok (spre ++ (s ++ vs) :: spost) := by
  intro vs
  induction vs with
  | nil =>
    intro es spre s spost _ hf _
    cases hf; simp [decodeMany]
  | cons v vs ih =>
    intro es spre s spost hl hf hcap
    cases hf with
    | @cons _ e _ es hv hf =>
    obtain ⟨ti, p, n⟩ := e
    obtain ⟨hti, d, hd, hdv⟩ := hv
    simp only at hti hdv
    subst hti
    simp at hcap
    have hfs : findSlot c.ti codings (spre ++ s :: spost) 0 0 = .slot pre.length := by
      rw [hcs]
      have := findSlot_at c.ti pre c post spre s spost 0 0 hl rfl (by omega)
        (fun x hx hxt => absurd hxt (hne x.1 (List.of_mem_zip hx).1)) (by omega)
      simpa using this
    have g1 : codings[pre.length]? = some c := by rw [hcs]; simp
    have g2 : (spre ++ s :: spost)[pre.length]? = some s := by rw [hl]; simp
    have g3 : ∀ s', (spre ++ s :: spost).set pre.length s' = spre ++ s' :: spost := by
      intro s'; rw [hl]; simp
    have hone : decodeOne codings (spre ++ s :: spost) c.ti p n = .ok (spre ++ (s ++ [v]) :: spost) := by
      unfold decodeOne
      simp only [hfs, g1, g2, hd, hdv, Res.bind_ok', storeVal, g3]
      rw [if_pos (by omega)]
      simp only [Res.bind_ok']
      rw [if_neg (by omega)]
    simp only [decodeMany, hone, Res.bind_ok']
    rw [ih es spre (s ++ [v]) spost hl hf (by simp; omega)]
    simp

theorem decodeMany_encodes {codings : List (Coding A)} (hnd : (codings.map (·.ti)).Nodup)
    (hmx : codings.length ≤ maxCodings) {R : Coding A → Val A → List UInt8 → Prop}
    {cs : List (Coding A)} {ss : Struct A} {l} (he : Encodes R Kind.obeys cs ss l) :
    ∀ (pre : List (Coding A)) (spre : Struct A) (es : List Ev), codings = pre ++ cs →
    pre.length = spre.length →
    All2 (fun (x : TagInst × List UInt8) (e : Ev) => e.1 = x.1 ∧
      ∀ c ∈ codings, ∀ v, R c v x.2 → ∃ d, c.dec = some d ∧ d e.2.1 e.2.2 = .ok v) l es →
    decodeMany codings es (spre ++ cs.map fun _ => []) = .ok (spre ++ ss) := by
  induction he with
  | nil => intro pre spre es _ _ hf; cases hf; simp [decodeMany]
  | @cons c cs vs ss bss l h1 h2 _ ih =>
    intro pre spre es hcs hl hf
    have hcap : vs.length ≤ c.kind.cap := h1.fits.le_cap
    -- split the events
    obtain ⟨es1, es2, rfl, hf1, hf2⟩ : ∃ es1 es2, es = es1 ++ es2 ∧
        All2 (fun (x : TagInst × List UInt8) (e : Ev) => e.1 = x.1 ∧
          ∀ c ∈ codings, ∀ v, R c v x.2 → ∃ d, c.dec = some d ∧ d e.2.1 e.2.2 = .ok v)
            (bss.map fun bs => (c.ti, bs)) es1 ∧
        All2 (fun (x : TagInst × List UInt8) (e : Ev) => e.1 = x.1 ∧
          ∀ c ∈ codings, ∀ v, R c v x.2 → ∃ d, c.dec = some d ∧ d e.2.1 e.2.2 = .ok v) l es2 := by
      have aux : ∀ {P : (TagInst × List UInt8) → Ev → Prop} (a b : List (TagInst × List UInt8)) (es : List Ev),
          All2 P (a ++ b) es → ∃ es1 es2, es = es1 ++ es2 ∧ All2 P a es1 ∧ All2 P b es2 := by
        intro P a
        induction a with
        | nil => intro b es h; exact ⟨[], es, rfl, .nil, h⟩
        | cons x a ih =>
          intro b es h
          cases h with
          | cons h1 h2 =>
            obtain ⟨e1, e2, rfl, h3, h4⟩ := ih b _ h2
            exact ⟨_ :: e1, e2, rfl, .cons h1 h3, h4⟩
      exact aux _ _ _ hf
    have hnep : ∀ x ∈ pre, x.ti ≠ c.ti := by
      intro x hx
      rw [hcs] at hnd
      simp only [List.map_append, List.map_cons, List.nodup_append] at hnd
      exact hnd.2.2 _ (List.mem_map_of_mem hx) _ (by simp)
    have hlen : pre.length < maxCodings := by
      rw [hcs] at hmx; simp at hmx; omega
    have hfv : All2 (fun v (e : Ev) => e.1 = c.ti ∧ ∃ d, c.dec = some d ∧ d e.2.1 e.2.2 = .ok v) vs es1 := by
      clear ih hf2 hf hcap h1
      induction h2 generalizing es1 with
      | nil => cases hf1; exact .nil
      | cons hv _ ih2 =>
        cases hf1 with
        | cons hx hf1 => exact .cons ⟨hx.1, hx.2 c (by simp [hcs]) _ hv⟩ (ih2 _ hf1)
    rw [decodeMany_append, List.map_cons,
      decodeMany_entry hcs hnep hlen vs es1 spre [] (cs.map fun _ => []) hl hfv (by simpa using hcap)]
    simp only [Res.bind_ok', List.nil_append]
    have := ih (pre ++ [c]) (spre ++ [vs]) es2 (by simp [hcs]) (by simp [hl]) hf2
    simpa using this

theorem Encodes.check {R : Coding A → Val A → List UInt8 → Prop} {cs : List (Coding A)}
    {ss : Struct A} {l} (he : Encodes R Kind.obeys cs ss l) :
    ∀ x ∈ cs.zip ss, (x.1.kind = .mand → x.2.length ≠ 0) ∧
      ∀ max mandatory, x.1.kind = .multi max mandatory → mandatory ≤ x.2.length := by
  induction he with
  | nil => simp
  | cons h1 _ _ ih =>
    intro x hx
    simp only [List.zip_cons_cons, List.mem_cons] at hx
    rcases hx with rfl | hx
    · constructor
      · intro hk; simp only at hk; rw [hk] at h1; simp only [Kind.obeys] at h1; simp only; omega
      · intro max mandatory hk; simp only at hk; rw [hk] at h1; exact h1.1
    · exact ih x hx

/-- Round trip through unordered decoding. -/
theorem decodeUnordered_encodesWhen {cfg : Cfg} {hdr dom} (h : cfg.Lawful hdr dom)
    {codings : List (Coding A)} (hnd : (codings.map (·.ti)).Nodup) (hmx : codings.length ≤ maxCodings)
    {F : List UInt8 → Prop} (hF : ∀ x r, F r → F (x ++ r))
    {ss : Struct A} {l} (he : Encodes (CodesWhen F) Kind.obeys codings ss l) (hd : tlvsDom dom l)
    (tail : List UInt8) (hT : F tail) :
    decodeUnordered codings { cfg := cfg, mem := tlvBytes hdr l ++ tail, srcLen := (tlvBytes hdr l).length } = .ok ss := by
  obtain ⟨es, ⟨h1, h2⟩, h0, h3⟩ := decodeUnordered_of_tlvs h codings l hd tail
  have hf : All2 (fun (x : TagInst × List UInt8) (e : Ev) => e.1 = x.1 ∧
      ∀ c ∈ codings, ∀ v, CodesWhen F c v x.2 → ∃ d, c.dec = some d ∧ d e.2.1 e.2.2 = .ok v) l es := by
    subst h1
    clear h3 he hd
    induction es with
    | nil => exact .nil
    | cons e es ih =>
      refine .cons ⟨rfl, ?_⟩ (ih (fun e he => h2 e (by simp [he])) (fun e he => h0 e (by simp [he])))
      rintro c _ v ⟨_, d, hd, hdv⟩
      refine ⟨d, hd, ?_⟩
      obtain ⟨ti, p, n⟩ := e
      have hn : n ≤ p.length := h2 (ti, p, n) (by simp)
      have := hdv (p.drop n) (by
        obtain ⟨x, hx⟩ := h0 (ti, p, n) (by simp)
        simp only at hx; rw [hx]; exact hF x tail hT)
      simp only [Ev.tlv, List.take_append_drop] at this
      rw [List.length_take, Nat.min_eq_left hn] at this
      exact this
  have := decodeMany_encodes hnd hmx he [] [] es rfl rfl hf
  rw [h3]
  simp only [List.nil_append] at this
  unfold emptyStruct
  rw [this]
  simp [checkMandatory_of codings ss 0 he.length (by omega) he.check]

theorem Codes.when {F : List UInt8 → Prop} {c : Coding A} {v bs} (h : Codes c v bs) : CodesWhen F c v bs := by
  obtain ⟨h1, d, h2, h3⟩ := h
  exact ⟨h1, d, h2, fun t _ => h3 t⟩

theorem decodeUnordered_encodes {cfg : Cfg} {hdr dom} (h : cfg.Lawful hdr dom)
    {codings : List (Coding A)} (hnd : (codings.map (·.ti)).Nodup) (hmx : codings.length ≤ maxCodings)
    {ss : Struct A} {l} (he : Encodes Codes Kind.obeys codings ss l) (hd : tlvsDom dom l) (tail : List UInt8) :
    decodeUnordered codings { cfg := cfg, mem := tlvBytes hdr l ++ tail, srcLen := (tlvBytes hdr l).length } = .ok ss :=
  decodeUnordered_encodesWhen (F := fun _ => True) h hnd hmx (fun _ _ _ => trivial)
    (he.mono (fun _ _ _ x => x.when) (fun _ _ x => x)) hd tail trivial

/-! ### What each member holds after unordered decoding, for distinct tags -/

theorem totalCap_ge {c : Coding A} {cs : List (Coding A)} (hc : c ∈ cs) : c.kind.cap ≤ totalCap c.ti cs := by
  unfold totalCap
  induction cs with
  | nil => simp at hc
  | cons x cs ih =>
    rcases List.mem_cons.mp hc with rfl | hc
    · simp
    · have := ih hc
      simp only [List.filter_cons]
      split <;> simp <;> omega

theorem decodeMany_vals {codings : List (Coding A)} (hnd : (codings.map (·.ti)).Nodup) (es : List Ev) :
    ∀ {slots s : Struct A}, StructOk codings slots → decodeMany codings es slots = .ok s →
    ∀ (i : Nat) c vs0, codings[i]? = some c → slots[i]? = some vs0 → c.kind.cap ≠ 0 →
    ∃ vs, s[i]? = some (vs0 ++ vs) ∧
      All2 (fun (e : Ev) v => ∃ d, c.dec = some d ∧ d e.2.1 e.2.2 = .ok v)
        (es.filter fun e => e.1 = c.ti) vs := by
  induction es with
  | nil =>
    intro slots s hok h i c vs0 h1 h2 h3
    simp only [decodeMany, Res.ok.injEq] at h
    subst h
    exact ⟨[], by simpa using h2, .nil⟩
  | cons e es ih =>
    intro slots s hok h i c vs0 h1 h2 h3
    obtain ⟨ti, p, n⟩ := e
    rw [decodeMany, Res.bind_eq_ok_iff] at h
    obtain ⟨s1, h4, h5⟩ := h
    have hok1 := (decodeOne_ok hok h4).1
    rcases decodeOne_cases codings slots ti p n hok with ⟨h0, h6⟩ | ⟨_, _, h6⟩ | ⟨_, h6⟩ |
        ⟨pre, c', post, spre, s', spost, e1, e2, e3, e4, e5, _, ⟨_, h6⟩ | ⟨d, hd, h6⟩⟩ <;> rw [h6] at h4
    · simp only [Res.ok.injEq] at h4
      subst h4
      have hne : ti ≠ c.ti := by
        rintro rfl
        have := totalCap_ge (List.mem_of_getElem? h1)
        omega
      obtain ⟨vs, h7, h8⟩ := ih hok1 h5 i c vs0 h1 h2 h3
      refine ⟨vs, h7, ?_⟩
      rw [List.filter_cons]; simpa [hne] using h8
    · simp at h4
    · simp at h4
    · simp at h4
    · rw [Res.bind_eq_ok_iff] at h4
      obtain ⟨v, h7, h8⟩ := h4
      split at h8
      · simp at h8
      simp only [Res.ok.injEq] at h8
      subst h8
      by_cases hi : i = pre.length
      · subst hi
        rw [e1] at h1
        rw [e2, e3] at h2
        simp at h1 h2
        subst h1 h2
        obtain ⟨vs, h9, h10⟩ := ih hok1 h5 pre.length c' (s' ++ [v]) (by rw [e1]; simp) (by rw [e3]; simp) h3
        refine ⟨v :: vs, by simpa using h9, ?_⟩
        rw [List.filter_cons]
        simp only [e4, decide_true, if_true]
        refine .cons ⟨d, hd, h7⟩ ?_
        simpa [e4] using h10
      · have hne : ti ≠ c.ti := by
          intro he
          apply hi
          have g1 : (codings.map (·.ti))[i]? = some ti := by rw [List.getElem?_map, h1]; simp [he]
          have g2 : (codings.map (·.ti))[pre.length]? = some ti := by
            rw [List.getElem?_map, e1]; simp [e4]
          have hlt : i < (codings.map (·.ti)).length := by
            rw [List.getElem?_eq_some_iff] at g1; exact g1.1
          exact (List.getElem?_inj hlt hnd).mp (g1.trans g2.symm)
        have h2' : (spre ++ (s' ++ [v]) :: spost)[i]? = some vs0 := by
          rw [← h2, e2]
          rcases Nat.lt_or_gt_of_ne hi with hlt | hgt
          · rw [List.getElem?_append_left (by omega), List.getElem?_append_left (by omega)]
          · rw [List.getElem?_append_right (by omega), List.getElem?_append_right (by omega)]
            obtain ⟨k, hk⟩ : ∃ k, i - spre.length = k + 1 := ⟨i - spre.length - 1, by omega⟩
            rw [hk]; simp
        obtain ⟨vs, h9, h10⟩ := ih hok1 h5 i c vs0 h1 h2' h3
        refine ⟨vs, h9, ?_⟩
        rw [List.filter_cons]; simpa [hne] using h10

/-- With decoders that succeed, unordered decoding succeeds or runs out of room. -/
theorem decodeMany_enotsup {codings : List (Coding A)} (es : List Ev)
    (hdec : ∀ c ∈ codings, ∀ e ∈ es, c.ti = e.1 → ∃ d v, c.dec = some d ∧ d e.2.1 e.2.2 = .ok v) :
    ∀ {slots : Struct A}, StructOk codings slots →
      (∃ s, decodeMany codings es slots = .ok s) ∨ decodeMany codings es slots = .err .ENOTSUP := by
  induction es with
  | nil => intro slots _; exact .inl ⟨slots, rfl⟩
  | cons e es ih =>
    intro slots hok
    obtain ⟨ti, p, n⟩ := e
    have ih' := @ih (fun c hc e he => hdec c hc e (by simp [he]))
    rw [decodeMany]
    rcases decodeOne_cases codings slots ti p n hok with ⟨_, h2⟩ | ⟨_, _, h2⟩ | ⟨_, h2⟩ |
        ⟨pre, c, post, spre, s, spost, e1, e2, e3, e4, e5, _, h6⟩
    · rw [h2]; exact ih' hok
    · rw [h2]; exact .inr rfl
    · rw [h2]; exact .inr rfl
    · obtain ⟨d, v, hd, hv⟩ := hdec c (by simp [e1]) (ti, p, n) (by simp) e4
      rcases h6 with ⟨h7, _⟩ | ⟨d', hd', h8⟩
      · rw [hd] at h7; simp at h7
      · rw [hd] at hd'
        simp only [Option.some.injEq] at hd'
        subst hd'
        simp only at hv
        rw [hv] at h8
        simp only [Res.bind_ok'] at h8
        split at h8
        · rw [h8]; exact .inr rfl
        · have := (decodeOne_ok hok h8).1
          rw [h8]
          exact ih' this

/-- With decoders that succeed and enough room, unordered decoding of the IEs succeeds. -/
theorem decodeMany_succeeds {codings : List (Coding A)} (hmx : codings.length ≤ maxCodings) (es : List Ev)
    (hdec : ∀ c ∈ codings, ∀ e ∈ es, c.ti = e.1 → ∃ d v, c.dec = some d ∧ d e.2.1 e.2.2 = .ok v) :
    ∀ {slots : Struct A}, StructOk codings slots →
      (∀ t, totalCap t codings ≠ 0 → usedBy t codings slots + countTag t es ≤ totalCap t codings) →
      ∃ s, decodeMany codings es slots = .ok s := by
  induction es with
  | nil => intro slots _ _; exact ⟨slots, rfl⟩
  | cons e es ih =>
    intro slots hok hroom
    obtain ⟨ti, p, n⟩ := e
    have ih' := @ih (fun c hc e he => hdec c hc e (by simp [he]))
    have hcnt : ∀ t, countTag t ((ti, p, n) :: es) = (if ti = t then 1 else 0) + countTag t es := by
      intro t
      simp only [countTag, List.filter_cons]
      by_cases h : ti = t <;> simp [h]; omega
    have hone : ∃ s1, decodeOne codings slots ti p n = .ok s1 := by
      rcases decodeOne_cases codings slots ti p n hok with ⟨_, h2⟩ | ⟨h0, h1, h2⟩ | ⟨h1, h2⟩ |
        ⟨pre, c, post, spre, s, spost, e1, e2, e3, e4, e5, _, h6⟩
      · exact ⟨_, h2⟩
      · have := hroom ti h0
        rw [hcnt, h1] at this
        simp at this
        omega
      · omega
      · obtain ⟨d, v, hd, hv⟩ := hdec c (by simp [e1]) (ti, p, n) (by simp) e4
        rcases h6 with ⟨h7, _⟩ | ⟨d', hd', h8⟩
        · rw [hd] at h7; simp at h7
        · rw [hd] at hd'
          simp only [Option.some.injEq] at hd'
          subst hd'
          simp only at hv
          rw [hv] at h8
          simp only [Res.bind_ok'] at h8
          rw [if_neg (by rw [e1] at hmx; simp at hmx; omega)] at h8
          exact ⟨_, h8⟩
    obtain ⟨s1, h1⟩ := hone
    obtain ⟨hok1, hu⟩ := decodeOne_ok hok h1
    rw [decodeMany, h1]
    apply ih' hok1
    intro t ht
    have := hroom t ht
    rw [hcnt] at this
    rw [hu t ht]
    omega

/-- The check at the end fails with -EINVAL only (for tables that are not too large). -/
theorem checkMandatory_einval (cs : List (Coding A)) : ∀ (ss : Struct A) (idx : Nat),
    idx + cs.length ≤ maxCodings →
    checkMandatory cs ss idx = .ok () ∨ checkMandatory cs ss idx = .err .EINVAL := by
  induction cs with
  | nil => intro ss idx _; exact .inl (by simp [checkMandatory])
  | cons c cs ih =>
    intro ss idx h
    simp only [List.length_cons] at h
    have := fun ss => ih ss (idx + 1) (by omega)
    cases ss with
    | nil => exact .inl (by simp [checkMandatory])
    | cons s ss =>
      simp only [checkMandatory]
      split
      · exact this ss
      · split
        · exact .inr rfl
        · exact this ss
      · rw [if_neg (by omega)]
        split
        · exact .inr rfl
        · exact this ss

end Verif
