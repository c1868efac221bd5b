/-
Lemmas about error reporting: what is reported when unordered decoding fails.
-/
import Verif.ReportLemmas
import Verif.SpecReport

namespace Verif
open Spec Props

variable {A : Type}

/-! ### The loop as a fold over IEs -/

/-- Decode a list of IEs, one after the other. -/
def decodeManyR (cs : List (RCoding A)) : List Ev → Struct A → Rep (Struct A)
  | [], slots => (.ok slots, [])
  | (ti, p, n) :: es, slots => (decodeOneR cs slots ti p n).bind (decodeManyR cs es)

theorem decodeManyR_fst (cs : List (RCoding A)) (es : List Ev) : ∀ slots,
    (decodeManyR cs es slots).1 = decodeMany (unreported cs) es slots := by
  induction es with
  | nil => intro slots; rfl
  | cons e es ih =>
    intro slots
    obtain ⟨ti, p, n⟩ := e
    simp only [decodeManyR, decodeMany, Rep.bind_fst, decodeOneR_fst, ih]

theorem Rep.bind_assoc {α β γ} (x : Rep α) (f : α → Rep β) (g : β → Rep γ) :
    (x.bind f).bind g = x.bind fun a => (f a).bind g := by
  obtain ⟨r, l⟩ := x
  cases r with
  | ok a =>
    simp only [Rep.bind]
    obtain ⟨r', l'⟩ := f a
    cases r' <;> simp
  | _ => rfl

theorem Rep.bind_ok {α β} (a : α) (f : α → Rep β) : Rep.bind (.ok a, []) f = f a := by simp [Rep.bind]

/-- The tag at which junk is reported. -/
def junkTi (hdr : TagInst → Nat → List UInt8) (tlMin : Nat) (junk : List UInt8) (last ti : TagInst) : Prop :=
  if junk.length < tlMin then ti = last else ∃ n, junk.take tlMin = hdr ti n

theorem loopR_eq {c : Cfg} {hdr dom} (h : c.Lawful hdr dom) (cs : List (RCoding A))
    (l : List (TagInst × List UInt8)) (junk : List UInt8) (hd : tlvsDom dom l)
    (hj : junk = [] ∨ BadRest c hdr dom junk) :
    ∀ (g : Load), g.At c (tlvBytes hdr l ++ junk) →
    ∃ es ti, EvsOf es l ∧ (∀ e ∈ es, ∃ x, e.2.1.drop e.2.2 = x ++ g.mem.drop g.srcLen) ∧
      (junk ≠ [] → junkTi hdr c.tlMin junk ((l.getLast?.map Prod.fst).getD g.ti) ti ∧
        ∃ n, junk.length < c.tlMin ∨ dom ti n) ∧
      ∀ (fuel : Nat) (slots : Struct A), l.length < fuel →
      decodeUnorderedLoopR cs fuel slots g =
        (decodeManyR cs es slots).bind fun s => if junk = [] then (.ok (s, ti), []) else returnError .EBADMSG ti .broken := by
  induction l with
  | nil =>
    intro g ha
    simp only [tlvBytes, List.nil_append] at ha
    rcases hj with hj | hj
    · subst hj
      refine ⟨[], g.ti, ⟨rfl, by simp⟩, by simp, by simp, ?_⟩
      intro fuel slots hf
      cases fuel with
      | zero => omega
      | succ fuel => simp [decodeManyR, Rep.bind, decodeUnorderedLoopR, Load.At.done h ha]
    · have hl := Load.rest_length ha.window
      rw [ha.rest] at hl
      have hne : junk.length ≠ 0 := fun h0 => hj.1 (List.length_eq_zero_iff.mp h0)
      have hpos := h.tlMin_pos
      rcases loadNext_cases h g ha.cfg ha.window with ⟨h1, _⟩ | ⟨h1, _⟩ | ⟨h1, h2, h3⟩ |
        ⟨h1, h2, ti, len, hdm, ht, h3⟩
      · have := ha.pos_le; omega
      · omega
      · refine ⟨[], g.ti, ⟨rfl, by simp⟩, by simp, fun _ => ⟨?_, 0, .inl (by omega)⟩, ?_⟩
        · rw [junkTi, if_pos (by omega)]; rfl
        · intro fuel slots hf
          cases fuel with
          | zero => omega
          | succ fuel => simp [decodeManyR, Rep.bind, decodeUnorderedLoopR, h3, hj.1, returnError]
      · rw [ha.rest] at ht
        have h3' : loadNext g = .err .EBADMSG { g with ti := ti, len := len, val := some (g.pos + c.tlMin) } := by
          rcases hj.2 with hb | ⟨ti', len', hd', ht', _, hlt⟩
          · omega
          · rw [ht'] at ht
            obtain ⟨rfl, rfl⟩ := h.inj _ _ _ _ hd' hdm ht
            rcases h3 with ⟨_, h3⟩ | ⟨h4, _⟩
            · exact h3
            · omega
        refine ⟨[], ti, ⟨rfl, by simp⟩, by simp, fun _ => ⟨?_, len, .inr hdm⟩, ?_⟩
        · rw [junkTi, if_neg (by omega)]; exact ⟨len, ht⟩
        · intro fuel slots hf
          cases fuel with
          | zero => omega
          | succ fuel => simp [decodeManyR, Rep.bind, decodeUnorderedLoopR, h3', hj.1, returnError]
  | cons x l ih =>
    intro g ha
    obtain ⟨ti, v⟩ := x
    have ha' : g.At c (hdr ti v.length ++ v ++ (tlvBytes hdr l ++ junk)) := by
      simpa [tlvBytes] using ha
    obtain ⟨g', h1, h2, h3, h4, h5, h6, h7, _, _, _, h9⟩ := Load.At.next h (hd (ti, v) (by simp)) ha'
    generalize ht : (tlvBytes hdr l ++ junk ++ g.mem.drop g.srcLen) = tail at h9
    obtain ⟨es, ti', ⟨e1, e2⟩, e4, e5, e3⟩ := ih (fun y hy => hd y (by simp [hy])) g' h2
    refine ⟨(ti, v ++ tail, v.length) :: es, ti', ⟨by simp [Ev.tlv, e1], ?_⟩, ?_, ?_, ?_⟩
    · intro e he
      rcases List.mem_cons.mp he with rfl | he
      · simp
      · exact e2 e he
    · intro e he
      rcases List.mem_cons.mp he with rfl | he
      · exact ⟨_, by simp only [List.drop_left]; exact ht.symm⟩
      · rw [← h6, ← h7]; exact e4 e he
    · intro hne
      refine ⟨?_, (e5 hne).2⟩
      have := (e5 hne).1
      cases l with
      | nil => simpa [h3] using this
      | cons y l =>
        rw [List.getLast?_cons_cons]
        cases hy : (y :: l).getLast? with
        | none => simp at hy
        | some z => simpa [hy] using this
    · intro fuel slots hf
      cases fuel with
      | zero => omega
      | succ fuel =>
        simp only [decodeUnorderedLoopR, h1, h4, decodeManyR]
        rw [h3, h9, h5, Rep.bind_assoc]
        congr 1
        funext s
        exact e3 fuel s (by simp at hf; omega)

/-! ### Decoding one IE -/

/-- In a table with distinct tags, an entry's tag has the room of that entry. -/
theorem totalCap_distinct {pre : List (Coding A)} {c : Coding A} {post : List (Coding A)}
    (hd : ((pre ++ c :: post).map (·.ti)).Nodup) : totalCap c.ti (pre ++ c :: post) = c.kind.cap := by
  have h1 : ∀ x ∈ pre, x.ti ≠ c.ti := by
    intro x hx he
    rw [List.map_append, List.nodup_append] at hd
    exact hd.2.2 x.ti (List.mem_map_of_mem hx) c.ti (by simp) he
  have h2 : ∀ x ∈ post, x.ti ≠ c.ti := by
    intro x hx he
    rw [List.map_append, List.nodup_append] at hd
    have := hd.2.1
    rw [List.map_cons, List.nodup_cons] at this
    exact this.1 (he ▸ List.mem_map_of_mem hx)
  unfold totalCap
  rw [List.filter_append, List.filter_cons_of_pos (by simp), List.filter_eq_nil_iff.2 (by simpa using h1),
    List.filter_eq_nil_iff.2 (by simpa using h2)]
  simp

/-- And its slot is all that the struct holds of that tag. -/
theorem usedBy_distinct {pre : List (Coding A)} {c : Coding A} {post : List (Coding A)}
    (hd : ((pre ++ c :: post).map (·.ti)).Nodup) {spre : Struct A} {s : List (Val A)} {spost : Struct A}
    (hl : pre.length = spre.length) :
    usedBy c.ti (pre ++ c :: post) (spre ++ s :: spost) = s.length := by
  have h1 : ∀ x ∈ pre, x.ti ≠ c.ti := by
    intro x hx he
    rw [List.map_append, List.nodup_append] at hd
    exact hd.2.2 x.ti (List.mem_map_of_mem hx) c.ti (by simp) he
  have h2 : ∀ x ∈ post, x.ti ≠ c.ti := by
    intro x hx he
    rw [List.map_append, List.nodup_append] at hd
    have := hd.2.1
    rw [List.map_cons, List.nodup_cons] at this
    exact this.1 (he ▸ List.mem_map_of_mem hx)
  unfold usedBy
  rw [zip_append_mid _ _ _ _ _ _ hl, List.filter_append, List.filter_cons_of_pos (by simp),
    List.filter_eq_nil_iff.2, List.filter_eq_nil_iff.2]
  · simp
  · intro x hx; simpa using h2 _ (List.of_mem_zip hx).1
  · intro x hx; simpa using h1 _ (List.of_mem_zip hx).1

/-- All outcomes of decoding one IE, with the reports, for a table with distinct tags. -/
theorem decodeOneR_cases (cs : List (RCoding A)) (slots : Struct A) (ti : TagInst) (p : List UInt8) (n : Nat)
    (hok : StructOk (unreported cs) slots) (hsm : cs.length ≤ maxCodings) (hdt : ((unreported cs).map (·.ti)).Nodup)
    (hroom : ∀ c ∈ cs, c.c.kind.cap ≠ 0) :
    ((∀ c ∈ cs, c.c.ti ≠ ti) ∧ decodeOneR cs slots ti p n = (.ok slots, [])) ∨
    (∃ c ∈ cs, c.c.ti = ti ∧ usedBy ti (unreported cs) slots = c.c.kind.cap ∧
      decodeOneR cs slots ti p n = returnError .ENOTSUP ti (.surplus c.c.kind.cap)) ∨
    (∃ c ∈ cs, c.c.ti = ti ∧ usedBy ti (unreported cs) slots < c.c.kind.cap ∧
      ((c.c.dec = none ∧ decodeOneR cs slots ti p n = returnError .EIO ti .noDecoder) ∨
       (∃ d, c.c.dec = some d ∧ ∃ st : Val A → Struct A, decodeOneR cs slots ti p n =
          Rep.bind (match d p n with
            | .err e => (.err e, c.decReports p n ++ [{ ti := ti, rc := e, text := c.complaint p n }])
            | r => (r, c.decReports p n)) fun v => (.ok (st v), [])))) := by
  have hf := findSlot_spec ti (unreported cs) slots 0 0 hok.len
  have hmem : ∀ c ∈ cs, c.c.ti = ti → totalCap ti (unreported cs) = c.c.kind.cap := by
    intro c hc he
    obtain ⟨pre, post, hs⟩ := List.append_of_mem (List.mem_map_of_mem (f := RCoding.c) hc)
    have e : unreported cs = pre ++ c.c :: post := hs
    rw [e] at hdt ⊢
    rw [← he]
    exact totalCap_distinct hdt
  unfold decodeOneR
  cases h : findSlot ti (unreported cs) slots 0 0 with
  | tooMany => rw [h] at hf; simp only [unreported, List.length_map] at hf; omega
  | full m =>
    rw [h] at hf
    simp only [Nat.zero_add] at hf
    obtain ⟨h1, h2⟩ := hf
    subst h1
    by_cases h0 : ∃ c ∈ cs, c.c.ti = ti
    · obtain ⟨c, hc, he⟩ := h0
      have ht := hmem c hc he
      refine .inr (.inl ⟨c, hc, he, ?_, ?_⟩)
      · rw [← ht]; exact usedBy_full ti (unreported cs) slots hok.len hok.cap h2
      · simp only [ht, if_pos (hroom c hc)]
    · refine .inl ⟨fun c hc he => h0 ⟨c, hc, he⟩, ?_⟩
      have : totalCap ti (unreported cs) = 0 := totalCap_eq_zero_of_unknown (by
        intro c hc he
        obtain ⟨c', hc', rfl⟩ := List.mem_map.1 hc
        exact h0 ⟨c', hc', he⟩)
      simp [this]
  | slot j =>
    rw [h] at hf
    obtain ⟨pre, c0, post, spre, s, spost, e1, e2, e3, e4, e5, e6, e7⟩ := hf
    simp only [Nat.zero_add] at e4
    subst e4
    have g1 : (unreported cs)[pre.length]? = some c0 := by rw [e1]; simp
    have g2 : slots[pre.length]? = some s := by rw [e2, e3]; simp
    simp only [unreported, List.getElem?_map, Option.map_eq_some_iff] at g1
    obtain ⟨c, g1, rfl⟩ := g1
    have hc := List.mem_of_getElem? g1
    have hlt : pre.length < maxCodings := by
      have := (List.getElem?_eq_some_iff.1 g1).1
      omega
    have hu : usedBy ti (unreported cs) slots = s.length := by
      rw [e1] at hdt ⊢
      rw [e2, ← e5]
      exact usedBy_distinct hdt e3
    refine .inr (.inr ⟨c, hc, e5, by rw [hu]; exact e6, ?_⟩)
    simp only [g1, g2]
    cases hd : c.c.dec with
    | none => exact .inl ⟨rfl, rfl⟩
    | some d =>
      refine .inr ⟨d, rfl, fun v => slots.set pre.length (s ++ [v]), ?_⟩
      simp only
      congr 1
      funext v
      simp only [storeVal, if_pos e6, Rep.bind_ok, if_neg (Nat.not_le.2 hlt)]

/-! ### Success is not reported -/

/-- Nothing is reported while decoding a value succeeds. -/
def Silent (c : RCoding A) : Prop := ∀ d, c.c.dec = some d → ∀ p n v, d p n = .ok v → c.decReports p n = []

theorem Rep.bind_silent {α β} {x : Rep α} {f : α → Rep β} (hx : ∀ a, x.1 = .ok a → x.2 = [])
    (hf : ∀ a, x.1 = .ok a → ∀ b, (f a).1 = .ok b → (f a).2 = []) : ∀ b, (x.bind f).1 = .ok b → (x.bind f).2 = [] := by
  obtain ⟨r, l⟩ := x
  cases r with
  | ok a =>
    intro b hb
    have h1 : l = [] := hx a rfl
    simp only [Rep.bind] at hb ⊢
    rw [h1, hf a rfl b hb, List.append_nil]
  | _ => intro b hb; cases hb

theorem decodeOneR_silent {cs : List (RCoding A)} (hs : ∀ c ∈ cs, Silent c) (slots : Struct A) (ti : TagInst)
    (p : List UInt8) (n : Nat) : ∀ b, (decodeOneR cs slots ti p n).1 = .ok b → (decodeOneR cs slots ti p n).2 = [] := by
  unfold decodeOneR
  cases findSlot ti (unreported cs) slots 0 0 with
  | tooMany => nofun
  | full m => simp only; split
              · nofun
              · intro b _; rfl
  | slot idx =>
    simp only
    cases hc : cs[idx]? with
    | none => nofun
    | some c =>
      cases slots[idx]? with
      | none => nofun
      | some s =>
        simp only
        cases hd : c.c.dec with
        | none => nofun
        | some d =>
          simp only
          refine Rep.bind_silent ?_ ?_
          · intro v hv
            cases hx : d p n with
            | ok w => exact hs c (List.mem_of_getElem? hc) d hd p n w hx
            | err e => rw [hx] at hv; cases hv
            | _ => rw [hx] at hv; cases hv
          · intro v _
            refine Rep.bind_silent (fun _ _ => rfl) ?_
            intro s' _ b
            split
            · nofun
            · intro _; rfl

theorem loopR_silent {cs : List (RCoding A)} (hs : ∀ c ∈ cs, Silent c) : ∀ (fuel : Nat) (slots : Struct A) (g : Load) b,
    (decodeUnorderedLoopR cs fuel slots g).1 = .ok b → (decodeUnorderedLoopR cs fuel slots g).2 = [] := by
  intro fuel
  induction fuel with
  | zero => nofun
  | succ fuel ih =>
    intro slots g
    simp only [decodeUnorderedLoopR]
    cases loadNext g with
    | ok g' =>
      simp only
      cases g'.val with
      | none => intro b _; rfl
      | some v => exact Rep.bind_silent (decodeOneR_silent hs _ _ _ _) fun s _ => ih s g'
    | _ => nofun

theorem checkMandatoryR_silent (last : TagInst) (cs : List (RCoding A)) : ∀ (ss : Struct A) (idx : Nat) b,
    (checkMandatoryR last cs ss idx).1 = .ok b → (checkMandatoryR last cs ss idx).2 = [] := by
  induction cs with
  | nil => intro ss idx b _; cases ss <;> rfl
  | cons c cs ih =>
    intro ss idx
    cases ss with
    | nil => intro b _; rfl
    | cons s ss =>
      simp only [checkMandatoryR]
      cases c.c.kind with
      | opt => exact ih ss _
      | multi a b =>
        simp only; split
        · nofun
        · exact ih ss _
      | mand =>
        simp only; split
        · nofun
        · split
          · nofun
          · exact ih ss _

theorem decodeUnorderedR_silent {cs : List (RCoding A)} (hs : ∀ c ∈ cs, Silent c) (g : Load) :
    ∀ b, (decodeUnorderedR cs g).1 = .ok b → (decodeUnorderedR cs g).2 = [] :=
  Rep.bind_silent (loopR_silent hs _ _ _) fun _ _ =>
    Rep.bind_silent (checkMandatoryR_silent _ _ _ _) fun _ _ _ _ => rfl

mutual
theorem Ty.silent (ty : Ty) (tag : Nat) (kind : Kind) : Silent (ty.rcoding tag kind) := by
  match ty with
  | .ie k => intro d hd p n v hv; rfl
  | .group f =>
    intro d hd p n v hv
    simp only [Ty.rcoding, nestedRCoding, nestedCoding, Option.some.injEq] at hd
    subst hd
    rw [Res.bind_eq_ok_iff] at hv
    obtain ⟨s, h1, _⟩ := hv
    refine decodeUnorderedR_silent (Fields.silent f) _ s ?_
    rw [decodeUnorderedR_fst]
    exact h1
theorem Fields.silent (f : Fields) : ∀ c ∈ f.rcodings, Silent c := by
  match f with
  | .nil => simp [Fields.rcodings]
  | .cons t k ty f =>
    intro c hc
    simp only [Fields.rcodings, List.mem_cons] at hc
    rcases hc with rfl | hc
    · exact Ty.silent ty t k
    · exact Fields.silent f c hc
end

end Verif
