/-
Lemmas for receiving bundles: the receive loop ends, and messages do not influence each other.
-/
import Verif.PropsMsg
import Verif.PropsDecEnc2

namespace Verif
open Spec Props

/-! ### Decoding ends -/

/-- The outcome is not an endless loop. -/
def Res.Ends {α} (x : Res α) : Prop := x ≠ .diverge

theorem Res.Ends.bind {α β} {x : Res α} {f : α → Res β} (h : x.Ends) (hf : ∀ a, (f a).Ends) : (x.bind f).Ends := by
  cases x with
  | ok a => exact hf a
  | diverge => exact absurd rfl h
  | _ => simp [Res.Ends, Res.bind]

theorem Res.Ends.ite {α} {p : Prop} [Decidable p] {a b : Res α} (ha : a.Ends) (hb : b.Ends) : (if p then a else b).Ends := by
  split <;> assumption

theorem Res.Ends.ok {α} (a : α) : (Res.ok a).Ends := by simp [Res.Ends]
theorem Res.Ends.err {α} (e : Errno) : (Res.err e : Res α).Ends := by simp [Res.Ends]
theorem Res.Ends.ub {α} : (Res.ub : Res α).Ends := by simp [Res.Ends]

theorem rd_ends (p : List UInt8) (i : Nat) : (rd p i).Ends := by
  unfold rd; split
  · exact .ok _
  · exact .ub
theorem rdN_ends (p : List UInt8) (i n : Nat) : (rdN p i n).Ends := .ite (.ok _) .ub
theorem raw_ends (k : Nat) (c : Cur) : (c.raw k).Ends := .ite (.err _) (.bind (rdN_ends _ _ _) fun _ => .ok _)
theorem num_ends (k : Nat) (c : Cur) : (c.num k).Ends := .bind (raw_ends _ _) fun _ => .ok _
theorem opt_ends (b : Bool) (k : Nat) (c : Cur) : (c.opt b k).Ends := .ite (num_ends _ _) (.ok _)
theorem v4_ends (b : Bool) (c : Cur) : (c.v4 b).Ends := .ite (.bind (num_ends _ _) fun _ => .ok _) (.ok _)
theorem v6_ends (b : Bool) (c : Cur) : (c.v6 b).Ends := .ite (.bind (num_ends _ _) fun _ => .ok _) (.ok _)

theorem apnToStr_ends (n : Nat) : ∀ p, (apnToStr p n).Ends := by
  induction n using Nat.strongRecOn with
  | _ n ih =>
    intro p
    unfold apnToStr
    split
    · exact .ok _
    · split
      · split
        · exact .ok _
        · split
          · exact .err _
          · exact .bind (rdN_ends _ _ _) fun _ => .bind (ih _ (by omega) _) fun _ => .ok _
      · exact .ub

theorem decName_ends (c : Cur) : (decName c).Ends :=
  .ite (.err _) (.bind (apnToStr_ends _ _) fun _ => .ite .ub (.ok _))

theorem bitsGet_ends (b : List UInt8) (i : Nat) : (bitsGet b i).Ends := .bind (rd_ends _ _) fun _ => .ok _

macro "ends" : tactic => `(tactic| repeat' first
  | exact Res.Ends.ok _ | exact Res.Ends.err _ | exact Res.Ends.ub | exact num_ends _ _ | exact raw_ends _ _
  | exact opt_ends _ _ _ | exact v4_ends _ _ | exact v6_ends _ _ | exact decName_ends _ | exact bitsGet_ends _ _
  | exact rdN_ends _ _ _ | exact rd_ends _ _
  | refine Res.Ends.bind ?_ (fun _ => ?_) | refine Res.Ends.ite ?_ ?_)

theorem decExact_ends (k : Nat) (c : Cur) : (decExact k c).Ends := by unfold decExact; ends
theorem decAtLeast_ends (k : Nat) (c : Cur) : (decAtLeast k c).Ends := by unfold decAtLeast; ends
theorem decBits_ends (k : Nat) (c : Cur) : (decBits k c).Ends := by unfold decBits; ends
theorem decNodeId_ends (c : Cur) : (decNodeId c).Ends := by unfold decNodeId; ends
theorem decFSeid_ends (c : Cur) : (decFSeid c).Ends := by unfold decFSeid; ends
theorem decFTeid_ends (c : Cur) : (decFTeid c).Ends := by unfold decFTeid; ends
theorem decOhc_ends (c : Cur) : (decOhc c).Ends := by unfold decOhc ohcParts; ends
theorem decApr_ends (c : Cur) : (decApr c).Ends := by unfold decApr readCStr; ends
theorem decOhr_ends (c : Cur) : (decOhr c).Ends := by unfold decOhr; ends
theorem decUeIp_ends (c : Cur) : (decUeIp c).Ends := by unfold decUeIp; ends

theorem ieDec_ends (k : IeKind) (p : List UInt8) (n : Nat) : (ieDec k p n).Ends := by
  cases k
  case applyAction => exact .ite (.err _) (.bind (decBits_ends _ _) fun _ => .ok _)
  all_goals refine Res.Ends.bind ?_ fun _ => .ok _
  all_goals first
    | exact decExact_ends _ _ | exact decAtLeast_ends _ _ | exact decBits_ends _ _ | exact decNodeId_ends _
    | exact decFSeid_ends _ | exact decFTeid_ends _ | exact decOhc_ends _ | exact decApr_ends _ | exact decOhr_ends _
    | exact decUeIp_ends _ | exact decName_ends _ | exact raw_ends _ _

mutual
theorem Ty.ends (ty : Ty) (tag : Nat) (kind : Kind) :
    ∀ d, (ty.coding tag kind).dec = some d → ∀ p n, d p n ≠ .diverge := by
  match ty with
  | .ie k =>
    intro d hd p n
    simp only [Ty.coding, ieCoding, leafCoding, Option.some.injEq] at hd
    subst hd
    exact Res.Ends.bind (ieDec_ends k p n) fun _ => .ok _
  | .group f =>
    exact C18_nested_ends t16l16v (lib_consumes .w16) { tag := tag } kind false f.codings (Fields.ends f)
theorem Fields.ends (f : Fields) : ∀ c ∈ f.codings, ∀ d, c.dec = some d → ∀ p n, d p n ≠ .diverge := by
  match f with
  | .nil => simp [Fields.codings]
  | .cons t k ty f =>
    intro c hc
    simp only [Fields.codings, List.mem_cons] at hc
    rcases hc with rfl | hc
    · exact Ty.ends ty t k
    · exact Fields.ends f c hc
end

theorem decodeTlv_ends (d : DecHdr) : decodeTlv d ≠ .diverge := by
  unfold decodeTlv
  rw [C66_message_definitions]
  cases message d.h.type with
  | none => simp [gtlvsDecode]
  | some f => exact C18_decoding_ends t16l16v (lib_consumes .w16) d.tlvMem d.tlvLen false f.codings (Fields.ends f)

theorem decodeHeader_ends (mem : List UInt8) (len : Nat) : decodeHeader (some mem) len ≠ .diverge := by
  show (decodeHeader (some mem) len).Ends
  unfold decodeHeader
  simp only
  ends

theorem decodeHeader_msgLen {mem : List UInt8} {len : Nat} {d : DecHdr} (h : decodeHeader (some mem) len = .ok d) :
    4 ≤ d.msgLen ∧ d.msgLen ≤ len := by
  unfold decodeHeader at h
  simp only at h
  split at h
  · simp at h
  split at h
  · simp at h
  obtain ⟨fl, _, h⟩ := Res.bind_eq_ok h
  split at h
  · simp at h
  obtain ⟨ty, _, h⟩ := Res.bind_eq_ok h
  obtain ⟨l, _, h⟩ := Res.bind_eq_ok h
  split at h
  · simp at h
  rename_i hl
  split at h
  · obtain ⟨_, _, h⟩ := Res.bind_eq_ok h
    split at h
    · simp at h
    · simp only [Res.ok.injEq] at h; subst h; simp only; omega
  · obtain ⟨_, _, h⟩ := Res.bind_eq_ok h
    obtain ⟨_, _, h⟩ := Res.bind_eq_ok h
    obtain ⟨_, _, h⟩ := Res.bind_eq_ok h
    simp only [Res.ok.injEq] at h; subst h; simp only; omega

/-! ### The receive loop -/

/-- The same as `rxBundle`, with the memory from l4h on and its length. -/
def rxLoop : (fuel : Nat) → (mem : List UInt8) → (len : Nat) → Res (List Rx)
  | 0, _, _ => .diverge
  | fuel + 1, mem, len =>
    if len = 0 then .ok []
    else
      match decodeHeader (some mem) len with
      | .err _ => .ok []
      | .ok d =>
        match decodeTlv d with
        | .ok ies => (rxLoop fuel (mem.drop d.msgLen) (len - d.msgLen)).bind fun l => .ok (⟨d, some ies⟩ :: l)
        | .err _ => (rxLoop fuel (mem.drop d.msgLen) (len - d.msgLen)).bind fun l => .ok (⟨d, none⟩ :: l)
        | .abort => .abort
        | .ub => .ub
        | .diverge => .diverge
      | .abort => .abort
      | .ub => .ub
      | .diverge => .diverge

theorem rxBundle_from (slack : List UInt8) : ∀ (fuel : Nat) (buf : Buf) (o : Nat), buf.l4h = some o → o ≤ buf.b.data.length →
    rxBundle fuel buf slack = rxLoop fuel (buf.b.data.drop o ++ slack) (buf.b.data.length - o)
  | 0, _, _, _, _ => rfl
  | fuel + 1, buf, o, h, ho => by
    have hd : buf.decodeHeader slack = decodeHeader (some (buf.b.data.drop o ++ slack)) (buf.b.data.length - o) := by
      simp [Buf.decodeHeader, h]
    have hl : buf.l4len = buf.b.data.length - o := by simp [Buf.l4len, h]
    rw [rxBundle, rxLoop, hd, hl]
    split
    · rfl
    · cases hx : decodeHeader (some (buf.b.data.drop o ++ slack)) (buf.b.data.length - o) with
      | ok d =>
        have hm := decodeHeader_msgLen hx
        have ih := rxBundle_from slack fuel { buf with l4h := buf.l4h.map fun o => o + d.msgLen } (o + d.msgLen) (by simp [h])
          (by show _ ≤ buf.b.data.length; omega)
        dsimp only at ih ⊢
        rw [ih, ← List.drop_drop, List.drop_append_of_le_length (by rw [List.length_drop]; omega), Nat.sub_sub]
        cases decodeTlv d <;> rfl
      | _ => rfl

/-- Receiving a datagram. -/
theorem rxBundle_eq (fuel : Nat) (o slack : List UInt8) : rxBundle fuel (.received o) slack = rxLoop fuel (o ++ slack) o.length := by
  have := rxBundle_from slack fuel (.received o) 0 rfl (Nat.zero_le _)
  simpa [Buf.received] using this

theorem rxLoop_succ (fuel : Nat) (mem : List UInt8) (len : Nat) (h0 : len ≠ 0) :
    rxLoop (fuel + 1) mem len =
      match decodeHeader (some mem) len with
      | .err _ => .ok []
      | .ok d =>
        match decodeTlv d with
        | .ok ies => (rxLoop fuel (mem.drop d.msgLen) (len - d.msgLen)).bind fun l => .ok (⟨d, some ies⟩ :: l)
        | .err _ => (rxLoop fuel (mem.drop d.msgLen) (len - d.msgLen)).bind fun l => .ok (⟨d, none⟩ :: l)
        | .abort => .abort
        | .ub => .ub
        | .diverge => .diverge
      | .abort => .abort
      | .ub => .ub
      | .diverge => .diverge := by
  rw [rxLoop, if_neg h0]

/-- With enough fuel the loop ends, and more fuel does not matter. -/
theorem rxLoop_fuel (fuel : Nat) : ∀ (mem : List UInt8) (len : Nat), len / 4 < fuel →
    rxLoop fuel mem len ≠ .diverge ∧ ∀ fuel', len / 4 < fuel' → rxLoop fuel' mem len = rxLoop fuel mem len := by
  induction fuel with
  | zero => intro mem len h; omega
  | succ fuel ih =>
    intro mem len h
    by_cases h0 : len = 0
    · subst h0
      refine ⟨by simp [rxLoop], ?_⟩
      intro fuel' h'
      obtain ⟨k, rfl⟩ : ∃ k, fuel' = k + 1 := ⟨fuel' - 1, by omega⟩
      simp [rxLoop]
    · have key : ∀ d, decodeHeader (some mem) len = .ok d → (len - d.msgLen) / 4 < fuel ∧
          ∀ k, len / 4 < k + 1 → (len - d.msgLen) / 4 < k := by
        intro d hd
        have := decodeHeader_msgLen hd
        exact ⟨by omega, fun k hk => by omega⟩
      constructor
      · rw [rxLoop_succ _ _ _ h0]
        cases hd : decodeHeader (some mem) len with
        | ok d =>
          simp only
          have hi := (ih (mem.drop d.msgLen) (len - d.msgLen) (key d hd).1).1
          cases ht : decodeTlv d with
          | ok ies => simp only; exact Res.Ends.bind hi fun _ => .ok _
          | err e => simp only; exact Res.Ends.bind hi fun _ => .ok _
          | diverge => exact absurd ht (decodeTlv_ends d)
          | _ => simp
        | diverge => exact absurd hd (decodeHeader_ends _ _)
        | _ => simp
      · intro fuel' h'
        obtain ⟨k, rfl⟩ : ∃ k, fuel' = k + 1 := ⟨fuel' - 1, by omega⟩
        rw [rxLoop_succ _ _ _ h0, rxLoop_succ _ _ _ h0]
        cases hd : decodeHeader (some mem) len with
        | ok d =>
          simp only
          rw [(ih (mem.drop d.msgLen) (len - d.msgLen) (key d hd).1).2 k ((key d hd).2 k h')]
        | _ => simp

/-- Each message takes at least four octets. -/
theorem rxLoop_count (fuel : Nat) : ∀ (mem : List UInt8) (len : Nat) (l : List Rx),
    rxLoop fuel mem len = .ok l → 4 * l.length ≤ len := by
  induction fuel with
  | zero => intro mem len l h; simp [rxLoop] at h
  | succ fuel ih =>
    intro mem len l h
    by_cases h0 : len = 0
    · subst h0; simp [rxLoop] at h; subst h; simp
    · rw [rxLoop_succ _ _ _ h0] at h
      cases hd : decodeHeader (some mem) len with
      | ok d =>
        have := decodeHeader_msgLen hd
        rw [hd] at h
        simp only at h
        cases ht : decodeTlv d with
        | ok ies =>
          rw [ht] at h
          obtain ⟨l', h1, h2⟩ := Res.bind_eq_ok h
          simp only [Res.ok.injEq] at h2
          subst h2
          have := ih _ _ _ h1
          simp only [List.length_cons]; omega
        | err e =>
          rw [ht] at h
          obtain ⟨l', h1, h2⟩ := Res.bind_eq_ok h
          simp only [Res.ok.injEq] at h2
          subst h2
          have := ih _ _ _ h1
          simp only [List.length_cons]; omega
        | _ => rw [ht] at h; simp at h
      | err e => rw [hd] at h; simp at h; subst h; simp
      | _ => rw [hd] at h; simp at h

/-! ### Messages one after the other -/

/-- What header decoding yields for the octets `o` of a message, with `rest` behind them. -/
def headerOf (o rest : List UInt8) : DecHdr :=
  { h := { version := ((o[0]?).getD 0).toNat / 32, type := ((o[1]?).getD 0).toNat
           seq := loadBE (((o.drop (announcedHeader o - 4))).take 3)
           prioPresent := bitAt o 1
           prio := if bitAt o 1 then ((o[15]?).getD 0).toNat % 16 else 0
           seidPresent := bitAt o 0
           seid := if bitAt o 0 then loadBE ((o.drop 4).take 8) else 0 }
    isResponse := isResponseType ((o[1]?).getD 0).toNat
    causeAt := (membOfsOf ((o[1]?).getD 0).toNat).1
    nodeIdAt := (membOfsOf ((o[1]?).getD 0).toNat).2
    tlvMem := o.drop (announcedHeader o) ++ rest
    tlvLen := (announcedLength o + 2 ^ 32 - announcedHeader o) % 2 ^ 32
    msgLen := announcedLength o }

theorem announcedHeader_cases (o : List UInt8) :
    (announcedHeader o = 16 ∧ bitAt o 0 = true) ∨ (announcedHeader o = 8 ∧ bitAt o 0 = false) := by
  cases h : bitAt o 0 <;> simp [announcedHeader, h]

theorem bitAt_append {m w : List UInt8} (h : 1 ≤ m.length) {i : Nat} (hi : i < 8) : bitAt (m ++ w) i = bitAt m i := by
  have : i / 8 = 0 := by omega
  simp only [bitAt, this]
  rw [List.getElem?_append_left (by omega)]

theorem headerOf_append {m w rest : List UInt8} (h : Framed m) : headerOf (m ++ w) rest = headerOf m (w ++ rest) := by
  obtain ⟨h1, h2, h3, h4⟩ := h
  have e0 : bitAt (m ++ w) 0 = bitAt m 0 := bitAt_append (by omega) (by omega)
  have e1 : bitAt (m ++ w) 1 = bitAt m 1 := bitAt_append (by omega) (by omega)
  have eh : announcedHeader (m ++ w) = announcedHeader m := by simp [announcedHeader, e0]
  have hd : ∀ i n, i + n ≤ m.length → ((m ++ w).drop i).take n = (m.drop i).take n := by
    intro i n hi
    rw [List.drop_append_of_le_length (by omega), List.take_append_of_le_length (by simp; omega)]
  have el : announcedLength (m ++ w) = announcedLength m := by
    simp only [announcedLength]; rw [hd 2 2 (by omega)]
  have hc := announcedHeader_cases m
  simp only [headerOf, e0, e1, eh, el]
  rw [List.getElem?_append_left (by omega), List.getElem?_append_left (by omega), hd _ 3 (by omega),
    List.drop_append_of_le_length h2, List.append_assoc]
  rcases hc with ⟨hc, hb⟩ | ⟨hc, hb⟩
  · rw [List.getElem?_append_left (by omega), hd 4 8 (by omega)]
  · have : bitAt m 1 = false := by
      cases hx : bitAt m 1
      · rfl
      · have := h4 hx; rw [hb] at this; exact absurd this (by simp)
    simp [this, hb]

theorem decodeHeader_framed {m : List UInt8} (h : Framed m) (w slack : List UInt8) :
    decodeHeader (some (m ++ w ++ slack)) (m ++ w).length = .ok (headerOf m (w ++ slack)) := by
  have ha := headerOf_append (w := w) (rest := slack) h
  obtain ⟨h1, h2, h3, h4⟩ := h
  have e0 : bitAt (m ++ w) 0 = bitAt m 0 := bitAt_append (by omega) (by omega)
  have e1 : bitAt (m ++ w) 1 = bitAt m 1 := bitAt_append (by omega) (by omega)
  have eh : announcedHeader (m ++ w) = announcedHeader m := by simp [announcedHeader, e0]
  have el : announcedLength (m ++ w) = m.length := by
    have := congrArg DecHdr.msgLen ha
    simp only [headerOf] at this
    omega
  rw [decodeHeader_form, ← ha]
  rw [if_neg (by rw [eh, List.length_append]; omega), if_neg (by rw [el, List.length_append]; omega)]
  rw [if_neg (by rw [e0, e1]; rintro ⟨a, b⟩; exact a (h4 b))]
  rfl

theorem headerOf_window {m r : List UInt8} (h : Framed m) :
    (headerOf m r).tlvMem = m.drop (announcedHeader m) ++ r ∧
    (headerOf m r).tlvLen = (m.drop (announcedHeader m)).length ∧ (headerOf m r).msgLen = m.length := by
  have hr := decodeHeader_framed h [] r
  simp only [List.append_nil, List.nil_append] at hr
  have h' := h
  obtain ⟨h1, h2, h3, h4⟩ := h'
  obtain ⟨w1, w2, w3⟩ := C22_window_partial m r _ hr (by omega)
  refine ⟨w3, ?_, h3⟩
  have : (headerOf m r).msgLen = m.length := h3
  simp only [List.length_drop]
  omega

theorem decodeTlv_local {m r r' : List UInt8} (h : Framed m) (hr : (0 : UInt8) ∈ r) (hr' : (0 : UInt8) ∈ r') :
    decodeTlv (headerOf m r) = decodeTlv (headerOf m r') ∧ (decodeTlv (headerOf m r)).Returns := by
  have hw := headerOf_window (r := r) h
  have hw' := headerOf_window (r := r') h
  have ht : (headerOf m r).h.type = (headerOf m r').h.type := rfl
  unfold decodeTlv
  rw [hw.1, hw.2.1, hw'.1, hw'.2.1, ← ht, C66_message_definitions]
  cases message (headerOf m r).h.type with
  | none => exact ⟨rfl, trivial⟩
  | some f =>
    simp only [Option.map_some, gtlvsDecode, Bool.false_eq_true, if_false]
    exact ⟨decodeUnordered_localWhen t16l16v_lawful f.codings (F := fun r => (0 : UInt8) ∈ r)
        (fun x r h => List.mem_append_right x h) (fun c hc => (f.localWhen c hc).1) _ r r' hr hr',
      decodeUnordered_returnsWhen t16l16v_lawful f.codings (F := fun r => (0 : UInt8) ∈ r)
        (fun x r h => List.mem_append_right x h) (fun c hc => (f.localWhen c hc).2) _ r hr⟩

/-- The outcome of the IE decoder, as the receive loop sees it. -/
def Res.toOption {α} : Res α → Option α
  | .ok a => some a
  | _ => none

/-- One round of the receive loop, on a message with a proper header. -/
theorem rxLoop_framed {m : List UInt8} (h : Framed m) (w slack : List UInt8) (hz : (0 : UInt8) ∈ slack) (fuel : Nat) :
    rxLoop (fuel + 1) (m ++ w ++ slack) (m ++ w).length =
      (rxLoop fuel (w ++ slack) w.length).bind fun l =>
        .ok (⟨headerOf m (w ++ slack), (decodeTlv (headerOf m [0])).toOption⟩ :: l) := by
  have h4 := h.1
  rw [rxLoop_succ _ _ _ (by rw [List.length_append]; omega), decodeHeader_framed h]
  have hw := headerOf_window (r := w ++ slack) h
  obtain ⟨hl, hr⟩ := decodeTlv_local (r := w ++ slack) (r' := [0]) h (List.mem_append_right _ hz) (by simp)
  have e1 : (m ++ w ++ slack).drop (headerOf m (w ++ slack)).msgLen = w ++ slack := by
    rw [hw.2.2, List.append_assoc, List.drop_left]
  have e2 : (m ++ w).length - (headerOf m (w ++ slack)).msgLen = w.length := by
    rw [hw.2.2, List.length_append]; omega
  simp only [e1, e2]
  rw [← hl]
  cases hd : decodeTlv (headerOf m (w ++ slack)) with
  | ok ies => rfl
  | err e => rfl
  | _ => rw [hd] at hr; exact hr.elim

end Verif
