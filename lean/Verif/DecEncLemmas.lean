/-
Lemmas about the decoding/encoding engine.
-/
import Verif.DecEnc
import Verif.GtlvLemmas

namespace Verif

/-! ### Parsing any window -/

section Parse
variable {c : Cfg} {hdr : TagInst → Nat → List UInt8} {dom : TagInst → Nat → Prop}

/-- Octets at which loading the next IE fails. -/
def BadRest (c : Cfg) (hdr : TagInst → Nat → List UInt8) (dom : TagInst → Nat → Prop)
    (junk : List UInt8) : Prop :=
  junk ≠ [] ∧ (junk.length < c.tlMin ∨
    ∃ ti len, dom ti len ∧ junk.take c.tlMin = hdr ti len ∧ c.tlMin ≤ junk.length ∧
      junk.length < c.tlMin + len)

theorem Load.At.bad (h : c.Lawful hdr dom) {g : Load} {junk} (ha : g.At c junk)
    (hb : BadRest c hdr dom junk) : ∃ g', loadNext g = .err .EBADMSG g' := by
  have hl := Load.rest_length ha.window
  rw [ha.rest] at hl
  have hne : junk.length ≠ 0 := by
    intro h0; exact hb.1 (List.length_eq_zero_iff.mp h0)
  have hpos := h.tlMin_pos
  rcases loadNext_cases h g ha.cfg ha.window with ⟨h1, _⟩ | ⟨h1, _⟩ | ⟨h1, h2, h3⟩ |
    ⟨h1, h2, ti, len, hd, ht, h3⟩
  · have := ha.pos_le; omega
  · omega
  · exact ⟨_, h3⟩
  · rcases hb.2 with hb | ⟨ti', len', hd', ht', _, hlt⟩
    · omega
    · rw [ha.rest, ht'] at ht
      obtain ⟨rfl, rfl⟩ := h.inj _ _ _ _ hd' hd ht
      rcases h3 with ⟨_, h3⟩ | ⟨h4, _⟩
      · exact ⟨_, h3⟩
      · omega

/-- Every octet string is a sequence of IEs followed by nothing, or by octets that do not load. -/
theorem parse_total (h : c.Lawful hdr dom) (n : Nat) : ∀ w : List UInt8, w.length ≤ n →
    ∃ l junk, w = tlvBytes hdr l ++ junk ∧ tlvsDom dom l ∧ (junk = [] ∨ BadRest c hdr dom junk) := by
  induction n using Nat.strongRecOn with
  | _ n ih =>
  intro w hw
  have hpos := h.tlMin_pos
  by_cases h0 : w = []
  · exact ⟨[], [], by simp [h0, tlvBytes], by simp [tlvsDom], .inl rfl⟩
  · have hw0 : 0 < w.length := List.length_pos_iff.mpr h0
    by_cases h1 : w.length < c.tlMin
    · exact ⟨[], w, by simp [tlvBytes], by simp [tlvsDom], .inr ⟨h0, .inl h1⟩⟩
    · obtain ⟨tl, _, _, hd, ht⟩ := h.load w w.length (by omega)
      by_cases h2 : w.length < c.tlMin + tl.len
      · exact ⟨[], w, by simp [tlvBytes], by simp [tlvsDom], .inr ⟨h0, .inr ⟨_, _, hd, ht, by omega, h2⟩⟩⟩
      · obtain ⟨l, junk, e, d, j⟩ := ih (n - c.tlMin) (by omega) (w.drop (c.tlMin + tl.len))
          (by simp; omega)
        have hvl : ((w.drop c.tlMin).take tl.len).length = tl.len := by simp; omega
        refine ⟨(tl.ti, (w.drop c.tlMin).take tl.len) :: l, junk, ?_, ?_, j⟩
        · simp only [tlvBytes, hvl, List.append_assoc]
          rw [← e, ← ht, ← List.drop_drop, List.take_append_drop, List.take_append_drop]
        · intro x hx
          rcases List.mem_cons.mp hx with rfl | hx
          · simp only [hvl]; exact hd
          · exact d x hx

end Parse

variable {A : Type}

/-! ### The loop as a fold over IEs -/

/-- An IE as the decoder sees it: tag, memory from the value on, length. -/
abbrev Ev := TagInst × List UInt8 × Nat

/-- Decode a list of IEs, one after the other. -/
def decodeMany (codings : List (Coding A)) : List Ev → Struct A → Res (Struct A)
  | [], slots => .ok slots
  | (ti, p, n) :: es, slots => (decodeOne codings slots ti p n).bind (decodeMany codings es)

theorem decodeMany_append (codings : List (Coding A)) (a b : List Ev) (slots : Struct A) :
    decodeMany codings (a ++ b) slots = (decodeMany codings a slots).bind (decodeMany codings b) := by
  induction a generalizing slots with
  | nil => rfl
  | cons x a ih =>
    obtain ⟨ti, p, n⟩ := x
    simp only [List.cons_append, decodeMany]
    cases decodeOne codings slots ti p n <;> simp [Res.bind, ih]

/-- The IE value an event stands for. -/
def Ev.tlv (e : Ev) : TagInst × List UInt8 := (e.1, e.2.1.take e.2.2)

/-- Events for a list of IEs: same tags, the value is in memory. -/
def EvsOf (es : List Ev) (l : List (TagInst × List UInt8)) : Prop :=
  es.map Ev.tlv = l ∧ ∀ e ∈ es, e.2.2 ≤ e.2.1.length

theorem loop_eq {c : Cfg} {hdr dom} (h : c.Lawful hdr dom) (codings : List (Coding A))
    (l : List (TagInst × List UInt8)) (junk : List UInt8) (hd : tlvsDom dom l)
    (hj : junk = [] ∨ BadRest c hdr dom junk) :
    ∀ (g : Load), g.At c (tlvBytes hdr l ++ junk) →
    ∃ es, EvsOf es l ∧ (∀ e ∈ es, ∃ x, e.2.1.drop e.2.2 = x ++ g.mem.drop g.srcLen) ∧
      ∀ (fuel : Nat) (slots : Struct A), l.length < fuel →
      decodeUnorderedLoop codings fuel slots g =
        (decodeMany codings es slots).bind fun s => if junk = [] then .ok s else .err .EBADMSG := by
  induction l with
  | nil =>
    intro g ha
    refine ⟨[], ⟨rfl, by simp⟩, by simp, ?_⟩
    intro fuel slots hf
    cases fuel with
    | zero => omega
    | succ fuel =>
      simp only [tlvBytes, List.nil_append] at ha
      simp only [decodeMany, Res.bind, decodeUnorderedLoop]
      rcases hj with hj | hj
      · subst hj; simp [Load.At.done h ha]
      · obtain ⟨g', hg⟩ := ha.bad h hj
        simp [hg, hj.1]
  | cons x l ih =>
    intro g ha
    obtain ⟨ti, v⟩ := x
    have ha' : g.At c (hdr ti v.length ++ v ++ (tlvBytes hdr l ++ junk)) := by
      simpa [tlvBytes] using ha
    obtain ⟨g', h1, h2, h3, h4, h5, h6, h7, _, _, _, h9⟩ := Load.At.next h (hd (ti, v) (by simp)) ha'
    generalize ht : (tlvBytes hdr l ++ junk ++ g.mem.drop g.srcLen) = tail at h9
    obtain ⟨es, ⟨e1, e2⟩, e4, e3⟩ := ih (fun y hy => hd y (by simp [hy])) g' h2
    refine ⟨(ti, v ++ tail, v.length) :: es, ⟨by simp [Ev.tlv, e1], ?_⟩, ?_, ?_⟩
    rotate_left
    · intro e he
      rcases List.mem_cons.mp he with rfl | he
      · exact ⟨_, by simp only [List.drop_left]; exact ht.symm⟩
      · rw [← h6, ← h7]; exact e4 e he
    rotate_right
    · intro e he
      rcases List.mem_cons.mp he with rfl | he
      · simp
      · exact e2 e he
    · intro fuel slots hf
      cases fuel with
      | zero => omega
      | succ fuel =>
        simp only [decodeUnorderedLoop, h1, h4, decodeMany]
        rw [h3, h9, h5]
        cases decodeOne codings slots ti (v ++ tail) v.length <;> simp [Res.bind]
        rw [e3 fuel _ (by simp at hf; omega)]
        rfl

/-- Complete description of unordered decoding of any window. -/
theorem decodeUnordered_eq {c : Cfg} {hdr dom} (h : c.Lawful hdr dom) (codings : List (Coding A))
    (g : Load) (hc : g.cfg = c) (hw : g.srcLen ≤ g.mem.length) :
    ∃ l junk es, g.mem.take g.srcLen = tlvBytes hdr l ++ junk ∧ tlvsDom dom l ∧
      (junk = [] ∨ BadRest c hdr dom junk) ∧ EvsOf es l ∧
      decodeUnordered codings g =
        (decodeMany codings es (emptyStruct codings)).bind fun slots =>
          if junk = [] then (checkMandatory codings slots 0).bind fun _ => .ok slots
          else .err .EBADMSG := by
  obtain ⟨l, junk, e, d, j⟩ := parse_total h _ (g.mem.take g.srcLen) (Nat.le_refl _)
  have ha : g.start.At c (tlvBytes hdr l ++ junk) := by
    refine ⟨hc, hw, ?_, ?_⟩
    · simp [Load.pos, Load.start]
    · rw [← e]; simp [Load.rest, Load.pos, Load.start]
  obtain ⟨es, h1, _, h2⟩ := loop_eq h codings l junk d j g.start ha
  refine ⟨l, junk, es, e, d, j, h1, ?_⟩
  unfold decodeUnordered
  have hlen : l.length < g.srcLen + 2 := by
    have h3 := congrArg List.length e
    have h4 := tlvBytes_length_ge h l
    have := h.tlMin_pos
    have : l.length ≤ l.length * c.tlMin := Nat.le_mul_of_pos_right _ this
    simp only [List.length_append, List.length_take] at h3
    omega
  rw [h2 _ _ hlen]
  cases decodeMany codings es (emptyStruct codings) <;> simp only [Res.bind]
  by_cases hjj : junk = [] <;> simp [hjj]

/-- The same for a window that is known to be a sequence of IEs. -/
theorem decodeUnordered_of_tlvs {c : Cfg} {hdr dom} (h : c.Lawful hdr dom) (codings : List (Coding A))
    (l : List (TagInst × List UInt8)) (hd : tlvsDom dom l) (tail : List UInt8) :
    ∃ es, EvsOf es l ∧ (∀ e ∈ es, ∃ x, e.2.1.drop e.2.2 = x ++ tail) ∧
      decodeUnordered codings { cfg := c, mem := tlvBytes hdr l ++ tail, srcLen := (tlvBytes hdr l).length } =
        (decodeMany codings es (emptyStruct codings)).bind fun slots =>
          (checkMandatory codings slots 0).bind fun _ => .ok slots := by
  have ha : Load.At { cfg := c, mem := tlvBytes hdr l ++ tail, srcLen := (tlvBytes hdr l).length } c
      (tlvBytes hdr l ++ []) := by
    refine ⟨rfl, by simp, by simp [Load.pos], by simp [Load.rest, Load.pos]⟩
  obtain ⟨es, h1, h0, h2⟩ := loop_eq h codings l [] hd (.inl rfl) _ ha
  refine ⟨es, h1, by simpa using h0, ?_⟩
  unfold decodeUnordered
  have hlen : l.length < (tlvBytes hdr l).length + 2 := by
    have h4 := tlvBytes_length_ge h l
    have := h.tlMin_pos
    have : l.length ≤ l.length * c.tlMin := Nat.le_mul_of_pos_right _ this
    omega
  simp only [Load.start]
  rw [h2 _ _ hlen]
  cases decodeMany codings es (emptyStruct codings) <;> simp [Res.bind]

/-! ### Finding a slot, storing one IE -/

/-- How many IEs with tag `ti` all entries together can hold. -/
def totalCap (ti : TagInst) (cs : List (Coding A)) : Nat :=
  ((cs.filter fun c => c.ti = ti).map fun c => c.kind.cap).sum

/-- How many IEs with tag `ti` a struct holds. -/
def usedBy (ti : TagInst) (cs : List (Coding A)) (ss : Struct A) : Nat :=
  (((cs.zip ss).filter fun x => x.1.ti = ti).map fun x => x.2.length).sum

theorem cmp_ne {a b : TagInst} : tagInstCmp (some a) (some b) ≠ 0 ↔ a ≠ b := by
  simp [tagInstCmp, TagInst.cmp_eq_zero]

theorem cmp_eq {a b : TagInst} : tagInstCmp (some a) (some b) = 0 ↔ a = b := by
  simp [tagInstCmp, TagInst.cmp_eq_zero]

/-- What `findSlot` finds. -/
theorem findSlot_spec (ti : TagInst) (cs : List (Coding A)) : ∀ (ss : Struct A) (idx m : Nat),
    ss.length = cs.length →
    match findSlot ti cs ss idx m with
    | .slot j => ∃ pre c post spre s spost, cs = pre ++ c :: post ∧ ss = spre ++ s :: spost ∧
        pre.length = spre.length ∧ j = idx + pre.length ∧ c.ti = ti ∧ s.length < c.kind.cap ∧
        (∀ x ∈ pre.zip spre, x.1.ti = ti → x.1.kind.cap ≤ x.2.length)
    | .full m' => m' = m + totalCap ti cs ∧ ∀ x ∈ cs.zip ss, x.1.ti = ti → x.1.kind.cap ≤ x.2.length
    | .tooMany => maxCodings < idx + cs.length := by
  induction cs with
  | nil =>
    intro ss idx m hl
    simp [findSlot, totalCap]
  | cons c cs ih =>
    intro ss idx m hl
    cases ss with
    | nil => simp at hl
    | cons s ss =>
      have hl' : ss.length = cs.length := by simpa using hl
      -- a step over this entry
      have skip : ∀ m', (c.ti = ti → c.kind.cap ≤ s.length) → (m' = m + if c.ti = ti then c.kind.cap else 0) →
          match findSlot ti cs ss (idx + 1) m' with
          | .slot j => ∃ pre c1 post spre s1 spost, c :: cs = pre ++ c1 :: post ∧ s :: ss = spre ++ s1 :: spost ∧
              pre.length = spre.length ∧ j = idx + pre.length ∧ c1.ti = ti ∧ s1.length < c1.kind.cap ∧
              (∀ x ∈ pre.zip spre, x.1.ti = ti → x.1.kind.cap ≤ x.2.length)
          | .full m' => m' = m + totalCap ti (c :: cs) ∧
              ∀ x ∈ (c :: cs).zip (s :: ss), x.1.ti = ti → x.1.kind.cap ≤ x.2.length
          | .tooMany => maxCodings < idx + (c :: cs).length := by
        intro m' hfull hm
        have := ih ss (idx + 1) m' hl'
        cases hf : findSlot ti cs ss (idx + 1) m' with
        | slot j =>
          rw [hf] at this
          obtain ⟨pre, c1, post, spre, s1, spost, e1, e2, e3, e4, e5, e6, e7⟩ := this
          refine ⟨c :: pre, c1, post, s :: spre, s1, spost, by simp [e1], by simp [e2], by simp [e3], ?_, e5, e6, ?_⟩
          · simp; omega
          · intro x hx
            simp only [List.zip_cons_cons, List.mem_cons] at hx
            rcases hx with rfl | hx
            · exact hfull
            · exact e7 x hx
        | full m1 =>
          rw [hf] at this
          refine ⟨?_, ?_⟩
          · rw [this.1, hm]
            simp only [totalCap, List.filter_cons]
            by_cases hc : c.ti = ti <;> simp [hc]; omega
          · intro x hx
            simp only [List.zip_cons_cons, List.mem_cons] at hx
            rcases hx with rfl | hx
            · exact hfull
            · exact this.2 x hx
        | tooMany =>
          rw [hf] at this
          simp only [List.length_cons] at this ⊢
          omega
      have hit : c.ti = ti → s.length < c.kind.cap →
          ∃ pre c1 post spre s1 spost, c :: cs = pre ++ c1 :: post ∧ s :: ss = spre ++ s1 :: spost ∧
              pre.length = spre.length ∧ idx = idx + pre.length ∧ c1.ti = ti ∧ s1.length < c1.kind.cap ∧
              (∀ x ∈ pre.zip spre, x.1.ti = ti → x.1.kind.cap ≤ x.2.length) :=
        fun h1 h2 => ⟨[], c, cs, [], s, ss, rfl, rfl, rfl, rfl, h1, h2, by simp⟩
      by_cases hc : c.ti = ti
      · have hcc : ¬ (tagInstCmp (some c.ti) (some ti) ≠ 0) := by rw [cmp_ne]; simpa using hc
        simp only [findSlot]
        rw [if_neg hcc]
        cases hk : c.kind with
        | opt =>
          simp only
          by_cases hs : s.length = 0
          · rw [if_neg (by simpa using hs)]; exact hit hc (by simp [hk, Kind.cap, hs])
          · rw [if_pos (by simpa using hs)]
            exact skip _ (fun _ => by simp [hk, Kind.cap]; omega) (by simp [hc, hk])
        | multi max mandatory =>
          simp only
          by_cases hs : s.length ≥ max
          · rw [if_pos hs]; exact skip _ (fun _ => by simpa [hk, Kind.cap] using hs) (by simp [hc, hk])
          · rw [if_neg hs]; exact hit hc (by simp [hk, Kind.cap]; omega)
        | mand =>
          simp only
          by_cases hi : idx ≥ maxCodings
          · rw [if_pos hi]; simp only [List.length_cons]; omega
          · rw [if_neg hi]
            by_cases hs : s.length = 0
            · rw [if_neg (by simpa using hs)]; exact hit hc (by simp [hk, Kind.cap, hs])
            · rw [if_pos (by simpa using hs)]
              exact skip _ (fun _ => by simp [hk, Kind.cap]; omega) (by simp [hc, hk])
      · have hcc : tagInstCmp (some c.ti) (some ti) ≠ 0 := by rw [cmp_ne]; exact hc
        simp only [findSlot]
        rw [if_pos hcc]
        exact skip m (fun h => absurd h hc) (by simp [hc])

/-- `findSlot` on a decomposed table when everything before is full or of another tag. -/
theorem findSlot_at (ti : TagInst) (pre : List (Coding A)) (c : Coding A) (post : List (Coding A)) :
    ∀ (spre : Struct A) (s : List (Val A)) (spost : Struct A) (idx m : Nat),
    pre.length = spre.length → c.ti = ti → s.length < c.kind.cap →
    (∀ x ∈ pre.zip spre, x.1.ti = ti → x.1.kind.cap ≤ x.2.length) →
    idx + pre.length < maxCodings →
    findSlot ti (pre ++ c :: post) (spre ++ s :: spost) idx m = .slot (idx + pre.length) := by
  induction pre with
  | nil =>
    intro spre s spost idx m hl hc hs _ hi
    cases spre with
    | cons _ _ => simp at hl
    | nil =>
      simp only [List.nil_append, List.length_nil, Nat.add_zero] at *
      simp only [findSlot]
      rw [if_neg (by rw [cmp_ne]; simpa using hc)]
      cases hk : c.kind with
      | opt => simp [hk, Kind.cap] at hs; simp [hs]
      | multi max mandatory => simp [hk, Kind.cap] at hs; simp; omega
      | mand => simp [hk, Kind.cap] at hs; simp [hs]; omega
  | cons d pre ih =>
    intro spre s spost idx m hl hc hs hx hi
    cases spre with
    | nil => simp at hl
    | cons t spre =>
      have hd := hx (d, t) (by simp)
      have step : ∀ m', findSlot ti (pre ++ c :: post) (spre ++ s :: spost) (idx + 1) m' =
          .slot (idx + (d :: pre).length) := by
        intro m'
        rw [ih spre s spost (idx + 1) m' (by simpa using hl) hc hs
          (fun x h => hx x (by simp [h])) (by simp at hi; omega)]
        simp; omega
      simp only [List.cons_append, findSlot]
      by_cases hdt : d.ti = ti
      · rw [if_neg (by rw [cmp_ne]; simpa using hdt)]
        have hcap := hd hdt
        cases hk : d.kind with
        | opt => simp only [hk, Kind.cap] at hcap; simp only; rw [if_pos (by omega)]; exact step _
        | multi max mandatory => simp only [hk, Kind.cap] at hcap; simp only; rw [if_pos hcap]; exact step _
        | mand =>
          simp only [hk, Kind.cap] at hcap
          simp only
          rw [if_neg (by omega), if_pos (by omega)]; exact step _
      · rw [if_pos (by rw [cmp_ne]; exact hdt)]; exact step _

theorem zip_append_mid {α β} (a : List α) (x : α) (b : List α) (a' : List β) (y : β) (b' : List β)
    (h : a.length = a'.length) : (a ++ x :: b).zip (a' ++ y :: b') = a.zip a' ++ (x, y) :: b.zip b' := by
  rw [List.zip_append h]; simp

/-- Storing one value adds one to the tag's count and nothing else. -/
theorem usedBy_store (ti : TagInst) (pre : List (Coding A)) (c : Coding A) (post : List (Coding A))
    (spre : Struct A) (s : List (Val A)) (spost : Struct A) (v : Val A)
    (h : pre.length = spre.length) :
    usedBy ti (pre ++ c :: post) (spre ++ (s ++ [v]) :: spost) =
      usedBy ti (pre ++ c :: post) (spre ++ s :: spost) + if c.ti = ti then 1 else 0 := by
  unfold usedBy
  rw [zip_append_mid _ _ _ _ _ _ h, zip_append_mid _ _ _ _ _ _ h]
  by_cases hc : c.ti = ti <;> simp [hc]; omega

/-- All entries with tag `ti` are full: the struct holds the total capacity. -/
theorem usedBy_full (ti : TagInst) (cs : List (Coding A)) (ss : Struct A) (hl : ss.length = cs.length)
    (hle : ∀ x ∈ cs.zip ss, x.2.length ≤ x.1.kind.cap)
    (hfull : ∀ x ∈ cs.zip ss, x.1.ti = ti → x.1.kind.cap ≤ x.2.length) :
    usedBy ti cs ss = totalCap ti cs := by
  induction cs generalizing ss with
  | nil => simp [usedBy, totalCap]
  | cons c cs ih =>
    cases ss with
    | nil => simp at hl
    | cons s ss =>
      have hi := ih ss (by simpa using hl) (fun x h => hle x (by simp [h])) (fun x h => hfull x (by simp [h]))
      unfold usedBy totalCap at hi ⊢
      have h1 := hle (c, s) (by simp)
      have h2 := hfull (c, s) (by simp)
      by_cases hc : c.ti = ti
      · have := h2 hc
        simp only at this h1
        simp [hc]; omega
      · simpa [hc, List.filter_cons] using hi

theorem usedBy_le (ti : TagInst) (cs : List (Coding A)) (ss : Struct A) (hl : ss.length = cs.length)
    (hle : ∀ x ∈ cs.zip ss, x.2.length ≤ x.1.kind.cap) : usedBy ti cs ss ≤ totalCap ti cs := by
  induction cs generalizing ss with
  | nil => simp [usedBy, totalCap]
  | cons c cs ih =>
    cases ss with
    | nil => simp at hl
    | cons s ss =>
      have hi := ih ss (by simpa using hl) (fun x h => hle x (by simp [h]))
      unfold usedBy totalCap at hi ⊢
      have h1 := hle (c, s) (by simp)
      by_cases hc : c.ti = ti
      · simp only at h1
        simp [hc]; omega
      · simpa [hc, List.filter_cons] using hi

/-- A struct in the making: one slot per entry, none over capacity. -/
structure StructOk (cs : List (Coding A)) (ss : Struct A) : Prop where
  len : ss.length = cs.length
  cap : ∀ x ∈ cs.zip ss, x.2.length ≤ x.1.kind.cap

theorem emptyStruct_ok (cs : List (Coding A)) : StructOk cs (emptyStruct cs) where
  len := by simp [emptyStruct]
  cap := by
    intro x hx
    have := List.of_mem_zip hx
    simp [emptyStruct] at this
    have h2 := this.2
    simp [h2]

theorem usedBy_empty (ti : TagInst) (cs : List (Coding A)) : usedBy ti cs (emptyStruct cs) = 0 := by
  induction cs with
  | nil => rfl
  | cons c cs ih =>
    unfold usedBy emptyStruct at ih ⊢
    by_cases hc : c.ti = ti <;> simp_all

/-- All outcomes of decoding one IE. -/
theorem decodeOne_cases (codings : List (Coding A)) (slots : Struct A) (ti : TagInst)
    (p : List UInt8) (n : Nat) (hok : StructOk codings slots) :
    -- not defined (or no room at all): skipped
    (totalCap ti codings = 0 ∧ decodeOne codings slots ti p n = .ok slots) ∨
    -- no room left
    (totalCap ti codings ≠ 0 ∧ usedBy ti codings slots = totalCap ti codings ∧
      decodeOne codings slots ti p n = .err .ENOTSUP) ∨
    -- table too large
    (maxCodings < codings.length ∧ decodeOne codings slots ti p n = .err .ENOTSUP) ∨
    -- stored, or the decoder's own outcome
    (∃ pre c post spre s spost, codings = pre ++ c :: post ∧ slots = spre ++ s :: spost ∧
      pre.length = spre.length ∧ c.ti = ti ∧ s.length < c.kind.cap ∧
      (∀ x ∈ pre.zip spre, x.1.ti = ti → x.1.kind.cap ≤ x.2.length) ∧
      ((c.dec = none ∧ decodeOne codings slots ti p n = .err .EIO) ∨
       (∃ d, c.dec = some d ∧ decodeOne codings slots ti p n =
          (d p n).bind fun v =>
            if pre.length ≥ maxCodings then .err .ENOTSUP else .ok (spre ++ (s ++ [v]) :: spost)))) := by
  have hf := findSlot_spec ti codings slots 0 0 hok.len
  unfold decodeOne
  cases h : findSlot ti codings slots 0 0 with
  | tooMany => rw [h] at hf; exact .inr (.inr (.inl ⟨by simpa using hf, rfl⟩))
  | full m =>
    rw [h] at hf
    simp only [Nat.zero_add] at hf
    obtain ⟨h1, h2⟩ := hf
    subst h1
    by_cases h0 : totalCap ti codings = 0
    · exact .inl ⟨h0, by simp [h0]⟩
    · exact .inr (.inl ⟨h0, usedBy_full ti codings slots hok.len hok.cap h2, by simp [h0]⟩)
  | slot j =>
    rw [h] at hf
    obtain ⟨pre, c, post, spre, s, spost, e1, e2, e3, e4, e5, e6, e7⟩ := hf
    simp only [Nat.zero_add] at e4
    refine .inr (.inr (.inr ⟨pre, c, post, spre, s, spost, e1, e2, e3, e5, e6, e7, ?_⟩))
    subst e4
    have g1 : codings[pre.length]? = some c := by rw [e1]; simp
    have g2 : slots[pre.length]? = some s := by rw [e2, e3]; simp
    have g3 : ∀ s', slots.set pre.length s' = spre ++ s' :: spost := by
      intro s'; rw [e2, e3]; simp
    simp only [g1, g2]
    cases hd : c.dec with
    | none => left; simp
    | some d =>
      right
      refine ⟨d, rfl, ?_⟩
      simp only
      cases d p n <;> simp [storeVal, e6, g3]

/-! ### Decoding a list of IEs -/

/-- Number of IEs with tag `ti`. -/
def countTag (ti : TagInst) (es : List Ev) : Nat := (es.filter fun e => e.1 = ti).length

theorem Res.bind_eq_ok_iff {α β} {r : Res α} {f : α → Res β} {b : β} :
    r.bind f = .ok b ↔ ∃ a, r = .ok a ∧ f a = .ok b := by
  cases r <;> simp [Res.bind]

theorem decodeOne_ok {codings : List (Coding A)} {slots slots' : Struct A} {ti : TagInst}
    {p : List UInt8} {n : Nat} (hok : StructOk codings slots)
    (h : decodeOne codings slots ti p n = .ok slots') :
    StructOk codings slots' ∧
      ∀ t, totalCap t codings ≠ 0 →
        usedBy t codings slots' = usedBy t codings slots + if ti = t then 1 else 0 := by
  rcases decodeOne_cases codings slots ti p n hok with ⟨h1, h2⟩ | ⟨_, _, h2⟩ | ⟨_, h2⟩ |
    ⟨pre, c, post, spre, s, spost, e1, e2, e3, e4, e5, _, ⟨_, h2⟩ | ⟨d, hd, h2⟩⟩
  · rw [h2] at h
    simp only [Res.ok.injEq] at h
    subst h
    refine ⟨hok, ?_⟩
    intro t ht
    rw [if_neg (by rintro rfl; exact ht h1)]; rfl
  · rw [h2] at h; simp at h
  · rw [h2] at h; simp at h
  · rw [h2] at h; simp at h
  · rw [h2, Res.bind_eq_ok_iff] at h
    obtain ⟨v, _, hv⟩ := h
    split at hv
    · simp at hv
    · simp only [Res.ok.injEq] at hv
      subst hv
      refine ⟨⟨?_, ?_⟩, ?_⟩
      · have := hok.len; rw [e2] at this; simp at this ⊢; omega
      · intro x hx
        rw [e1, zip_append_mid _ _ _ _ _ _ e3] at hx
        have hcap := hok.cap
        rw [e1, e2, zip_append_mid _ _ _ _ _ _ e3] at hcap
        simp only [List.mem_append, List.mem_cons] at hx hcap
        rcases hx with hx | rfl | hx
        · exact hcap x (.inl hx)
        · simp; omega
        · exact hcap x (.inr (.inr hx))
      · intro t _
        rw [e1, e2, usedBy_store t _ _ _ _ _ _ _ e3, e4]

theorem decodeMany_ok {codings : List (Coding A)} (es : List Ev) : ∀ {slots slots' : Struct A},
    StructOk codings slots → decodeMany codings es slots = .ok slots' →
    StructOk codings slots' ∧
      ∀ t, totalCap t codings ≠ 0 → usedBy t codings slots' = usedBy t codings slots + countTag t es := by
  induction es with
  | nil =>
    intro slots slots' hok h
    simp only [decodeMany, Res.ok.injEq] at h
    subst h
    exact ⟨hok, by simp [countTag]⟩
  | cons e es ih =>
    intro slots slots' hok h
    obtain ⟨ti, p, n⟩ := e
    rw [decodeMany, Res.bind_eq_ok_iff] at h
    obtain ⟨s1, h1, h2⟩ := h
    obtain ⟨hok1, hu1⟩ := decodeOne_ok hok h1
    obtain ⟨hok2, hu2⟩ := ih hok1 h2
    refine ⟨hok2, ?_⟩
    intro t ht
    rw [hu2 t ht, hu1 t ht]
    simp only [countTag, List.filter_cons]
    by_cases hti : ti = t <;> simp [hti]
    omega

/-- Outcomes that are not undefined behaviour. -/
theorem decodeMany_no_ub {codings : List (Coding A)} (es : List Ev)
    (hdec : ∀ c ∈ codings, ∀ d, c.dec = some d → ∀ e ∈ es, d e.2.1 e.2.2 ≠ .ub) :
    ∀ {slots : Struct A}, StructOk codings slots → decodeMany codings es slots ≠ .ub := by
  induction es with
  | nil => intro slots _; simp [decodeMany]
  | cons e es ih =>
    intro slots hok
    obtain ⟨ti, p, n⟩ := e
    have ih' := @ih (fun c hc d hd e he => hdec c hc d hd e (by simp [he]))
    rw [decodeMany]
    cases h1 : decodeOne codings slots ti p n with
    | ok s1 => exact ih' (decodeOne_ok hok h1).1
    | ub =>
      exfalso
      rcases decodeOne_cases codings slots ti p n hok with ⟨_, h2⟩ | ⟨_, _, h2⟩ | ⟨_, h2⟩ |
        ⟨pre, c, post, spre, s, spost, e1, e2, e3, e4, e5, _, ⟨_, h2⟩ | ⟨d, hd, h2⟩⟩ <;>
        rw [h2] at h1
      all_goals try (simp at h1; done)
      have := hdec c (by simp [e1]) d hd (ti, p, n) (by simp)
      simp only at this
      cases hdv : d p n <;> rw [hdv] at h1 this <;> simp at h1 this
      split at h1 <;> simp at h1
    | err e => simp
    | abort => simp
    | diverge => simp

/-- Decoders that return make decoding return. -/
theorem decodeMany_returns {codings : List (Coding A)} (es : List Ev)
    (hdec : ∀ c ∈ codings, ∀ d, c.dec = some d → ∀ e ∈ es, (d e.2.1 e.2.2).Returns) :
    ∀ {slots : Struct A}, StructOk codings slots → (decodeMany codings es slots).Returns := by
  induction es with
  | nil => intro slots _; simp [decodeMany, Res.Returns]
  | cons e es ih =>
    intro slots hok
    obtain ⟨ti, p, n⟩ := e
    have ih' := @ih (fun c hc d hd e he => hdec c hc d hd e (by simp [he]))
    rw [decodeMany]
    rcases decodeOne_cases codings slots ti p n hok with ⟨_, h2⟩ | ⟨_, _, h2⟩ | ⟨_, h2⟩ |
        ⟨pre, c, post, spre, s, spost, e1, e2, e3, e4, e5, _, ⟨_, h2⟩ | ⟨d, hd, h2⟩⟩
    · rw [h2]; exact ih' hok
    · rw [h2]; simp [Res.Returns]
    · rw [h2]; simp [Res.Returns]
    · rw [h2]; simp [Res.Returns]
    · have hr := hdec c (by simp [e1]) d hd (ti, p, n) (by simp)
      cases h1 : decodeOne codings slots ti p n with
      | ok s1 => exact ih' (decodeOne_ok hok h1).1
      | err e => simp [Res.Returns]
      | _ =>
        exfalso
        rw [h2] at h1
        simp only at hr
        cases hdv : d p n <;> rw [hdv] at h1 hr <;> simp [Res.Returns] at h1 hr <;> split at h1 <;> simp at h1

/-- The check at the end. -/
theorem checkMandatory_ok (cs : List (Coding A)) : ∀ (ss : Struct A) (idx : Nat),
    ss.length = cs.length → checkMandatory cs ss idx = .ok () →
    ∀ x ∈ cs.zip ss, (x.1.kind = .mand → x.2.length ≠ 0) ∧
      ∀ max mandatory, x.1.kind = .multi max mandatory → mandatory ≤ x.2.length := by
  induction cs with
  | nil => intro ss idx _ _ x hx; simp at hx
  | cons c cs ih =>
    intro ss idx hl h x hx
    cases ss with
    | nil => simp at hl
    | cons s ss =>
      have hl' : ss.length = cs.length := by simpa using hl
      simp only [List.zip_cons_cons, List.mem_cons] at hx
      simp only [checkMandatory] at h
      cases hk : c.kind with
      | opt =>
        rw [hk] at h
        rcases hx with rfl | hx
        · simp [hk]
        · exact ih ss _ hl' h x hx
      | multi max mandatory =>
        rw [hk] at h
        simp only at h
        split at h
        · simp at h
        · rcases hx with rfl | hx
          · simp [hk]; omega
          · exact ih ss _ hl' h x hx
      | mand =>
        rw [hk] at h
        simp only at h
        split at h
        · simp at h
        · split at h
          · simp at h
          · rcases hx with rfl | hx
            · simp [hk]; simp_all
            · exact ih ss _ hl' h x hx

theorem checkMandatory_of (cs : List (Coding A)) : ∀ (ss : Struct A) (idx : Nat),
    ss.length = cs.length → idx + cs.length ≤ maxCodings →
    (∀ x ∈ cs.zip ss, (x.1.kind = .mand → x.2.length ≠ 0) ∧
      ∀ max mandatory, x.1.kind = .multi max mandatory → mandatory ≤ x.2.length) →
    checkMandatory cs ss idx = .ok () := by
  induction cs with
  | nil => intro ss idx _ _ _; simp [checkMandatory]
  | cons c cs ih =>
    intro ss idx hl hi h
    cases ss with
    | nil => simp at hl
    | cons s ss =>
      have hl' : ss.length = cs.length := by simpa using hl
      have ih' := ih ss (idx + 1) hl' (by simp at hi; omega) (fun x hx => h x (by simp [hx]))
      have hc := h (c, s) (by simp)
      simp only [checkMandatory]
      cases hk : c.kind with
      | opt => exact ih'
      | multi max mandatory =>
        have := hc.2 max mandatory hk
        simp only at this ⊢
        rw [if_neg (by omega)]; exact ih'
      | mand =>
        have := hc.1 hk
        simp only at this ⊢
        simp at hi
        rw [if_neg (by omega), if_neg this]; exact ih'

theorem checkMandatory_returns (cs : List (Coding A)) (ss : Struct A) (idx : Nat) :
    (checkMandatory cs ss idx).Returns := by
  induction cs generalizing ss idx with
  | nil => simp [checkMandatory, Res.Returns]
  | cons c cs ih =>
    cases ss with
    | nil => simp [checkMandatory, Res.Returns]
    | cons s ss =>
      simp only [checkMandatory]
      cases c.kind <;> simp only
      · split
        · simp [Res.Returns]
        · split
          · simp [Res.Returns]
          · exact ih ..
      · exact ih ..
      · split
        · simp [Res.Returns]
        · exact ih ..

/-! ### Unknown IEs, order independence -/

theorem totalCap_eq_zero_of_unknown {ti : TagInst} {cs : List (Coding A)} (h : ∀ c ∈ cs, c.ti ≠ ti) :
    totalCap ti cs = 0 := by
  unfold totalCap
  rw [List.filter_eq_nil_iff.mpr (by intro c hc; simpa using h c hc)]
  rfl

theorem findSlot_unknown (ti : TagInst) (cs : List (Coding A)) (h : ∀ c ∈ cs, c.ti ≠ ti) :
    ∀ (ss : Struct A) (idx m : Nat), findSlot ti cs ss idx m = .full m := by
  induction cs with
  | nil => intro ss idx m; simp [findSlot]
  | cons c cs ih =>
    intro ss idx m
    cases ss with
    | nil => simp [findSlot]
    | cons s ss =>
      simp only [findSlot]
      rw [if_pos (by rw [cmp_ne]; exact h c (by simp))]
      exact ih (fun c hc => h c (by simp [hc])) ..

theorem decodeOne_unknown (codings : List (Coding A)) (slots : Struct A) (ti : TagInst) (p n)
    (h : ∀ c ∈ codings, c.ti ≠ ti) : decodeOne codings slots ti p n = .ok slots := by
  unfold decodeOne
  rw [findSlot_unknown ti codings h]; simp

theorem decodeMany_filter_known (codings : List (Coding A)) (es : List Ev) (slots : Struct A)
    (known : Ev → Bool) (hk : ∀ e ∈ es, known e = false → ∀ c ∈ codings, c.ti ≠ e.1) :
    decodeMany codings (es.filter known) slots = decodeMany codings es slots := by
  induction es generalizing slots with
  | nil => rfl
  | cons e es ih =>
    obtain ⟨ti, p, n⟩ := e
    have ih' := fun s => ih s (fun e he => hk e (by simp [he]))
    rw [List.filter_cons]
    by_cases hkn : known (ti, p, n) = true
    · rw [if_pos hkn]
      simp only [decodeMany]
      congr 1
      funext s
      exact ih' s
    · rw [if_neg hkn, ih']
      simp only [decodeMany]
      rw [decodeOne_unknown _ _ _ _ _ (hk (ti, p, n) (by simp) (by simpa using hkn))]
      rfl

/-- `findSlot` only looks at slots of entries with the wanted tag. -/
theorem findSlot_set (ti : TagInst) (cs : List (Coding A)) : ∀ (ss : Struct A) (idx m k : Nat)
    (x : List (Val A)), (∀ c, cs[k]? = some c → c.ti ≠ ti) →
    findSlot ti cs (ss.set k x) idx m = findSlot ti cs ss idx m := by
  induction cs with
  | nil => intros; simp [findSlot]
  | cons c cs ih =>
    intro ss idx m k x hk
    cases ss with
    | nil => simp
    | cons s ss =>
      cases k with
      | zero =>
        have := hk c (by simp)
        simp only [List.set_cons_zero, findSlot]
        rw [if_pos (by rw [cmp_ne]; exact this), if_pos (by rw [cmp_ne]; exact this)]
      | succ k =>
        have ih' := fun idx m => ih ss idx m k x (by simpa using hk)
        simp only [List.set_cons_succ, findSlot, ih']

theorem findSlot_slot_ti {ti : TagInst} {cs : List (Coding A)} : ∀ {ss : Struct A} {idx m j : Nat},
    findSlot ti cs ss idx m = .slot j → ∃ k c, j = idx + k ∧ cs[k]? = some c ∧ c.ti = ti ∧ k < ss.length := by
  induction cs with
  | nil => intro ss idx m j h; simp [findSlot] at h
  | cons c cs ih =>
    intro ss idx m j h
    cases ss with
    | nil => simp [findSlot] at h
    | cons s ss =>
      have skip : ∀ m', findSlot ti cs ss (idx + 1) m' = .slot j → ∃ k c', j = idx + k ∧
          (c :: cs)[k]? = some c' ∧ c'.ti = ti ∧ k < (s :: ss).length := by
        intro m' hm
        obtain ⟨k, c', h1, h2, h3, h4⟩ := ih hm
        exact ⟨k + 1, c', by omega, by simpa using h2, h3, by simpa using h4⟩
      simp only [findSlot] at h
      split at h
      · exact skip _ h
      · rename_i hne
        have hct : c.ti = ti := by
          apply Classical.byContradiction
          intro hh; exact hne (cmp_ne.mpr hh)
        have here : (Found.slot idx = Found.slot j) → ∃ k c', j = idx + k ∧
          (c :: cs)[k]? = some c' ∧ c'.ti = ti ∧ k < (s :: ss).length := by
          intro hh; cases hh; exact ⟨0, c, rfl, by simp, hct, by simp⟩
        cases hk : c.kind <;> simp only [hk] at h
        · split at h
          · simp at h
          · split at h
            · exact skip _ h
            · exact here h
        · split at h
          · exact skip _ h
          · exact here h
        · split at h
          · exact skip _ h
          · exact here h

/-- Two successive IEs of different tags can be exchanged. -/
theorem decodeOne_comm {codings : List (Coding A)} {slots s1 s2 : Struct A} {t1 t2 : TagInst}
    {p1 p2 : List UInt8} {n1 n2 : Nat} (hne : t1 ≠ t2)
    (h1 : decodeOne codings slots t1 p1 n1 = .ok s1) (h2 : decodeOne codings s1 t2 p2 n2 = .ok s2) :
    ∃ s1', decodeOne codings slots t2 p2 n2 = .ok s1' ∧ decodeOne codings s1' t1 p1 n1 = .ok s2 := by
  -- shape of a successful step
  have shape : ∀ {sl sl' : Struct A} {t p n}, decodeOne codings sl t p n = .ok sl' →
      (sl' = sl ∧ findSlot t codings sl 0 0 = .full 0) ∨
      ∃ k c s d v, findSlot t codings sl 0 0 = .slot k ∧ codings[k]? = some c ∧ sl[k]? = some s ∧
        c.ti = t ∧ c.dec = some d ∧ d p n = .ok v ∧ s.length < c.kind.cap ∧ ¬ k ≥ maxCodings ∧
        sl' = sl.set k (s ++ [v]) := by
    intro sl sl' t p n h
    unfold decodeOne at h
    cases hf : findSlot t codings sl 0 0 with
    | tooMany => rw [hf] at h; simp at h
    | full m =>
      rw [hf] at h
      simp only at h
      split at h
      · simp at h
      · rename_i hm; left; simp at h hm; exact ⟨h.symm, by rw [hm]⟩
    | slot k =>
      right
      rw [hf] at h
      simp only at h
      obtain ⟨k', c', hk', hc', hti, _⟩ := findSlot_slot_ti hf
      have : k' = k := by omega
      subst this
      cases hsl : sl[k']? with
      | none => rw [hc', hsl] at h; simp at h
      | some s =>
        rw [hc', hsl] at h
        simp only at h
        cases hd : c'.dec with
        | none => rw [hd] at h; simp at h
        | some d =>
          rw [hd] at h
          simp only [Res.bind_eq_ok_iff] at h
          obtain ⟨v, hv, s', hs', h⟩ := h
          unfold storeVal at hs'
          split at hs'
          · rename_i hlt
            split at h
            · simp at h
            · rename_i hmx
              simp at hs' h
              exact ⟨k', c', s, d, v, rfl, hc', hsl, hti, hd, hv, hlt, hmx, by rw [← h, hs']⟩
          · simp at hs'
  -- and back
  have build : ∀ {sl : Struct A} {t p n k c s d v}, findSlot t codings sl 0 0 = .slot k →
      codings[k]? = some c → sl[k]? = some s → c.dec = some d → d p n = .ok v →
      s.length < c.kind.cap → ¬ k ≥ maxCodings →
      decodeOne codings sl t p n = .ok (sl.set k (s ++ [v])) := by
    intro sl t p n k c s d v a1 a2 a3 a4 a5 a6 a7
    unfold decodeOne
    simp [a1, a2, a3, a4, a5, storeVal, a6, a7]
  have buildFull : ∀ {sl : Struct A} {t p n}, findSlot t codings sl 0 0 = .full 0 →
      decodeOne codings sl t p n = .ok sl := by
    intro sl t p n h; unfold decodeOne; simp [h]
  rcases shape h1 with ⟨rfl, f1⟩ | ⟨k, c, s, d, v, a1, a2, a3, a4, a5, a6, a7, a8, rfl⟩
  · -- the first is skipped
    rcases shape h2 with ⟨rfl, f2⟩ | ⟨k, c, s, d, v, b1, b2, b3, b4, b5, b6, b7, b8, rfl⟩
    · exact ⟨_, h2, h1⟩
    · refine ⟨_, h2, ?_⟩
      apply buildFull
      rw [findSlot_set _ _ _ _ _ _ _ (by intro c' hc'; rw [b2] at hc'; cases hc'; rw [b4]; exact hne.symm), f1]
  · rcases shape h2 with ⟨rfl, f2⟩ | ⟨k', c', s', d', v', b1, b2, b3, b4, b5, b6, b7, b8, rfl⟩
    · rw [findSlot_set _ _ _ _ _ _ _ (by intro c' hc'; rw [a2] at hc'; cases hc'; rw [a4]; exact hne)] at f2
      exact ⟨slots, buildFull f2, h1⟩
    · have hkk : k ≠ k' := by
        rintro rfl
        rw [a2] at b2; cases b2
        exact hne (a4.symm.trans b4)
      rw [findSlot_set _ _ _ _ _ _ _ (by intro c' hc'; rw [a2] at hc'; cases hc'; rw [a4]; exact hne)] at b1
      rw [List.getElem?_set_ne hkk] at b3
      refine ⟨_, build b1 b2 b3 b5 b6 b7 b8, ?_⟩
      rw [List.set_comm _ _ hkk]
      apply build (c := c) (d := d) _ a2 _ a5 a6 a7 a8
      · rw [findSlot_set _ _ _ _ _ _ _ (by intro c' hc'; rw [b2] at hc'; cases hc'; rw [b4]; exact hne.symm), a1]
      · rw [List.getElem?_set_ne (Ne.symm hkk)]; exact a3

theorem decodeMany_move {codings : List (Coding A)} (x : Ev) (pre post : List Ev) :
    ∀ {slots s : Struct A}, (∀ e ∈ pre, e.1 ≠ x.1) →
    (decodeMany codings (x :: pre ++ post) slots = .ok s →
      decodeMany codings (pre ++ x :: post) slots = .ok s) := by
  obtain ⟨t, p, n⟩ := x
  induction pre with
  | nil => intro slots s _ h; exact h
  | cons y pre ih =>
    obtain ⟨t', p', n'⟩ := y
    intro slots s hne h
    simp only [List.cons_append, decodeMany, Res.bind_eq_ok_iff] at h ⊢
    obtain ⟨s1, h1, s2, h2, h3⟩ := h
    obtain ⟨s1', g1, g2⟩ := decodeOne_comm (hne (t', p', n') (by simp)).symm h1 h2
    refine ⟨s1', g1, ih (fun e he => hne e (by simp [he])) ?_⟩
    simp only [List.cons_append, decodeMany, Res.bind_eq_ok_iff]
    exact ⟨s2, g2, h3⟩

theorem split_first {α} {p : α → Bool} {l : List α} {x : α} {xs : List α} (h : l.filter p = x :: xs) :
    ∃ a b, l = a ++ x :: b ∧ (∀ y ∈ a, p y = false) ∧ b.filter p = xs := by
  induction l with
  | nil => simp at h
  | cons y l ih =>
    rw [List.filter_cons] at h
    split at h
    · simp only [List.cons.injEq] at h
      obtain ⟨rfl, rfl⟩ := h
      exact ⟨[], l, rfl, by simp, rfl⟩
    · rename_i hy
      obtain ⟨a, b, rfl, h1, h2⟩ := ih h
      refine ⟨y :: a, b, rfl, ?_, h2⟩
      intro z hz
      rcases List.mem_cons.mp hz with rfl | hz
      · simpa using hy
      · exact h1 z hz

/-- Reordering that keeps, for each tag, the order of its IEs. -/
theorem decodeMany_reorder {codings : List (Coding A)} (es : List Ev) : ∀ (es' : List Ev)
    {slots s : Struct A}, (∀ t : TagInst, (es.filter fun e => e.1 = t) = es'.filter fun e => e.1 = t) →
    decodeMany codings es slots = .ok s → decodeMany codings es' slots = .ok s := by
  induction es with
  | nil =>
    intro es' slots s hf h
    cases es' with
    | nil => exact h
    | cons e es' => have := hf e.1; simp at this
  | cons e es ih =>
    intro es' slots s hf h
    have h0 := hf e.1
    simp only [List.filter_cons, decide_true, if_true] at h0
    obtain ⟨a, b, rfl, ha, hb⟩ := split_first h0.symm
    apply decodeMany_move e a b (fun y hy => by simpa using ha y hy)
    simp only [List.cons_append]
    obtain ⟨t, p, n⟩ := e
    simp only [decodeMany, Res.bind_eq_ok_iff] at h ⊢
    obtain ⟨s1, h1, h2⟩ := h
    refine ⟨s1, h1, ih (a ++ b) ?_ h2⟩
    intro t'
    have h3 := hf t'
    by_cases htt : t = t'
    · subst htt
      have hna : a.filter (fun e => e.1 = t) = [] := by
        rw [List.filter_eq_nil_iff]; intro y hy; simpa using ha y hy
      simp [List.filter_append, hna] at h3 ⊢
      exact h3
    · simp [List.filter_append, htt] at h3 ⊢
      exact h3

end Verif
