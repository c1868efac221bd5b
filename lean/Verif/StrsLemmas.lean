/-
Lemmas about printing: appending to a `struct osmo_strbuf` prints the concatenation of the texts.
-/
import Verif.SpecStrs
import Verif.BasicLemmas

namespace Verif

open Spec

/-- What snprintf() leaves in a buffer. -/
def wr (w : List UInt8) (t : Text) : List UInt8 :=
  if w.length = 0 then w else t.take (w.length - 1) ++ 0 :: w.drop (min t.length (w.length - 1) + 1)

def fill : CBuf → Text → CBuf
  | none, _ => none
  | some w, t => some (wr w t)

/-- The state of a strbuf on `buf` after appending texts; `none`: nothing yet. -/
def sbAt (buf : CBuf) : Option Text → StrBuf
  | none => { buf := buf }
  | some t => { buf := fill buf t, pos := buf.map fun w => min t.length w.length, needed := t.length }

/-- Prints a text to all buffers, if `q` is false, or to NULL, if it is true. -/
def PrintsOn (q : Bool) (f : StrFn) (t : Text) : Prop :=
  ∀ buf : CBuf, buf.isNone = q → f buf = .ok (fill buf t, .ok t.length)

theorem wr_length (w : List UInt8) (t : Text) : (wr w t).length = w.length := by
  unfold wr
  split
  · rfl
  · simp only [List.length_append, List.length_take, List.length_cons, List.length_drop]; omega

theorem wr_nil {w : List UInt8} (h : w.length = 0) (t : Text) : wr w t = w := by
  simp [wr, h]

theorem wr_fits {w : List UInt8} {t : Text} (h : t.length < w.length) : wr w t = t ++ 0 :: w.drop (t.length + 1) := by
  have h1 : w.length ≠ 0 := by omega
  have h2 : min t.length (w.length - 1) = t.length := by omega
  rw [wr, if_neg h1, h2, List.take_of_length_le (by omega)]

theorem wr_wr (w : List UInt8) (t u : Text) :
    (wr w t).take (min t.length w.length) ++ wr ((wr w t).drop (min t.length w.length)) u = wr w (t ++ u) := by
  by_cases h : t.length < w.length
  · have hm : min t.length w.length = t.length := by omega
    rw [hm, wr_fits h, List.take_left, List.drop_left]
    have hl : (0 :: w.drop (t.length + 1)).length = w.length - t.length := by
      simp only [List.length_cons, List.length_drop]; omega
    have h0 : w.length ≠ 0 := by omega
    have h1 : w.length - t.length ≠ 0 := by omega
    rw [wr, hl, if_neg h1, wr, if_neg h0, List.take_append, List.take_of_length_le (l := t) (by omega)]
    rw [List.append_assoc, List.drop_succ_cons, List.drop_drop, List.length_append]
    have e1 : w.length - t.length - 1 = w.length - 1 - t.length := by omega
    have e2 : t.length + 1 + min u.length (w.length - t.length - 1) = min (t.length + u.length) (w.length - 1) + 1 := by omega
    rw [e2, e1]
  · have hm : min t.length w.length = w.length := by omega
    rw [hm, List.take_of_length_le (by rw [wr_length]; omega), List.drop_eq_nil_of_le (by rw [wr_length]; omega)]
    rw [wr_nil (w := []) rfl, List.append_nil]
    unfold wr
    split
    · rfl
    · rw [List.take_append_of_le_length (by omega), List.length_append]
      have e : min (t.length + u.length) (w.length - 1) = min t.length (w.length - 1) := by omega
      rw [e]

theorem append_at {buf : CBuf} {f : StrFn} {u : Text} (o : Option Text) (h : PrintsOn buf.isNone f u) :
    (sbAt buf o).append f = .ok (sbAt buf (some (o.getD [] ++ u))) := by
  cases buf with
  | none =>
    have hf := h none rfl
    cases o with
    | none => simp [sbAt, StrBuf.append, hf, fill, rcChars, Res.bind]
    | some t => simp [sbAt, StrBuf.append, hf, fill, rcChars, Res.bind]
  | some w =>
    have hf := fun v => h (some v) rfl
    cases o with
    | none =>
      simp only [sbAt, StrBuf.append, Option.getD_none, List.drop_zero, hf, fill, Res.bind, rcChars, List.take_zero,
        List.nil_append, Nat.zero_add, Option.map_some]
      by_cases hl : u.length > w.length
      · have e : min u.length w.length = w.length := by omega
        simp [hl, e]
      · have e : min u.length w.length = u.length := by omega
        simp [hl, e]
    | some t =>
      simp only [sbAt, StrBuf.append, Option.getD_some, Option.map_some, hf, fill, Res.bind, rcChars, wr_wr, wr_length,
        List.length_append]
      by_cases hl : u.length > w.length - min t.length w.length
      · have e : min (t.length + u.length) w.length = w.length := by omega
        simp [hl, e]
      · have e : min (t.length + u.length) w.length = min t.length w.length + u.length := by omega
        simp [hl, e]

theorem snprintf_prints (q : Bool) (t : Text) : PrintsOn q (snprintf t) t := by
  intro buf _
  cases buf with
  | none => rfl
  | some w =>
    show (if w.length = 0 then _ else _) = Res.ok (some (wr w t), _)
    unfold wr
    split <;> rfl

theorem printf_at (buf : CBuf) (o : Option Text) (t : Text) :
    (sbAt buf o).printf t = .ok (sbAt buf (some (o.getD [] ++ t))) := append_at o (snprintf_prints _ t)

/-- A function that prints nothing at all, not even a NUL. -/
theorem append_silent {buf : CBuf} {f : StrFn} (t : Text) (h : ∀ b : CBuf, b.isNone = buf.isNone → f b = .ok (b, .ok 0)) :
    (sbAt buf (some t)).append f = .ok (sbAt buf (some t)) := by
  cases buf with
  | none =>
    have hf := h none rfl
    simp [sbAt, StrBuf.append, hf, fill, rcChars, Res.bind]
  | some w =>
    have hf := fun v => h (some v) rfl
    simp [sbAt, StrBuf.append, Option.getD_some, Option.map_some, hf, fill, Res.bind, rcChars, List.take_append_drop]

theorem strFn_prints {q : Bool} {g : StrBuf → Res StrBuf} {t : Text}
    (h : ∀ buf : CBuf, buf.isNone = q → g (sbAt buf none) = .ok (sbAt buf (some t))) : PrintsOn q (strFn g) t := by
  intro buf hq
  have := h buf hq
  unfold strFn
  rw [show ({ buf := buf } : StrBuf) = sbAt buf none from rfl, this]
  rfl

theorem when_true (f : StrBuf → Res StrBuf) (sb : StrBuf) : sb.when true f = f sb := rfl
theorem when_false (f : StrBuf → Res StrBuf) (sb : StrBuf) : sb.when false f = .ok sb := rfl

/-- Optionally printing a text, after something has been printed. -/
theorem when_printf_at (c : Bool) (buf : CBuf) (t u : Text) :
    (sbAt buf (some t)).when c (StrBuf.printf u) = .ok (sbAt buf (some (t ++ textIf c u))) := by
  cases c with
  | false => simp [when_false, textIf]
  | true => simp [when_true, printf_at, textIf]

@[simp] theorem bind_ok_str {α β : Type} (a : α) (f : α → Res β) : (Res.ok a).bind f = f a := rfl

theorem ipAddrsToStr_prints (q : Bool) (lib : LibText) (a : IpAddrs) :
    PrintsOn q (ipAddrsToStr lib (some a)) (ipText lib a) := by
  unfold ipAddrsToStr
  refine strFn_prints fun buf _ => ?_
  rcases a with ⟨v4p, v4, v6p, v6⟩
  cases v4p <;> cases v6p <;> simp [when_true, when_false, printf_at, ipText]
  rw [show lit ",v6:" = lit "," ++ lit "v6:" by decide, List.append_assoc]

theorem rd_getD {bits : List UInt8} {i : Nat} (h : i < bits.length) : rd bits i = .ok (bits.getD i 0) := by
  simp [rd, List.getElem?_eq_getElem h, List.getD_eq_getElem?_getD]

theorem flag_testBit (b : UInt8) (k : Nat) : flag b.toNat (1 <<< k) = b.toNat.testBit k := by
  unfold flag
  rw [Nat.one_shiftLeft]
  cases h : b.toNat.testBit k with
  | true =>
    simp only [decide_eq_true_eq]
    intro h0
    have : (b.toNat &&& 2 ^ k).testBit k = true := by simp [h]
    rw [h0] at this
    simp at this
  | false =>
    simp only [ne_eq, decide_not, Bool.not_eq_eq_eq_not, Bool.not_false, decide_eq_true_eq]
    apply Nat.eq_of_testBit_eq
    intro j
    simp only [Nat.testBit_and, Nat.testBit_two_pow, Nat.zero_testBit]
    by_cases hj : k = j
    · subst hj; simp [h]
    · simp [hj]

theorem bitsGet_ok {bits : List UInt8} {n : Nat} (h : n / 8 < bits.length) : bitsGet bits n = .ok (bitSet bits n) := by
  unfold bitsGet bitSet
  rw [rd_getD h, bind_ok_str, flag_testBit]

/-- The names of the bits that are set, each with a "+" in front, except the first. -/
def plusNames (bits : List UInt8) : ValueStrs → Bool → Text
  | [], _ => []
  | e :: es, first =>
    if bitSet bits e.1 then (if first then [] else lit "+") ++ lit e.2 ++ plusNames bits es false
    else plusNames bits es first

theorem bitsLoop_later {bits : List UInt8} (buf : CBuf) : ∀ (es : ValueStrs) (t : Text),
    (∀ e ∈ es, e.1 / 8 < bits.length) →
    bitsLoop bits es false (sbAt buf (some t)) = .ok (sbAt buf (some (t ++ plusNames bits es false)), false)
  | [], t, _ => by simp [bitsLoop, plusNames]
  | (n, name) :: es, t, h => by
    have h0 := h (n, name) (by simp)
    have hr := fun e he => h e (List.mem_cons_of_mem _ he)
    unfold bitsLoop plusNames
    rw [bitsGet_ok h0]
    cases hb : bitSet bits n with
    | true =>
      simp only [bind_ok_str, if_true, printf_at, Option.getD_some, Bool.false_eq_true, if_false]
      rw [bitsLoop_later buf es _ hr]
      simp
    | false =>
      simp only [bind_ok_str, Bool.false_eq_true, if_false]
      exact bitsLoop_later buf es _ hr

theorem bitsLoop_first {bits : List UInt8} (buf : CBuf) : ∀ (es : ValueStrs), (∀ e ∈ es, e.1 / 8 < bits.length) →
    bitsLoop bits es true (sbAt buf none) =
      if es.all (fun e => !bitSet bits e.1) then .ok (sbAt buf none, true)
      else .ok (sbAt buf (some (plusNames bits es true)), false)
  | [], _ => by simp [bitsLoop]
  | (n, name) :: es, h => by
    have h0 := h (n, name) (by simp)
    have hr := fun e he => h e (List.mem_cons_of_mem _ he)
    unfold bitsLoop plusNames
    rw [bitsGet_ok h0]
    cases hb : bitSet bits n with
    | true =>
      simp only [bind_ok_str, if_true, printf_at, Option.getD_none]
      rw [bitsLoop_later buf es _ hr]
      simp [hb]
    | false =>
      simp only [bind_ok_str, Bool.false_eq_true, if_false]
      rw [bitsLoop_first buf es hr, List.all_cons]
      simp only [hb, Bool.not_false, Bool.true_and]

theorem plusNames_false (bits : List UInt8) : ∀ es : ValueStrs,
    plusNames bits es false = ((es.filter fun e => bitSet bits e.1).map fun e => lit "+" ++ lit e.2).flatten
  | [] => rfl
  | e :: es => by
    unfold plusNames
    rw [plusNames_false bits es]
    cases hb : bitSet bits e.1 <;> simp [hb]

theorem intercalate_cons (sep t : Text) : ∀ ts : List Text,
    List.intercalate sep (t :: ts) = t ++ (ts.map fun u => sep ++ u).flatten
  | [] => by simp [List.intercalate]
  | u :: ts => by
    have := intercalate_cons sep u ts
    simp only [List.intercalate, List.intersperse] at this ⊢
    simp [this]

theorem plusNames_true (bits : List UInt8) : ∀ es : ValueStrs,
    plusNames bits es true = joined "+" ((es.filter fun e => bitSet bits e.1).map fun e => lit e.2)
  | [] => rfl
  | e :: es => by
    unfold plusNames
    cases hb : bitSet bits e.1 with
    | true => simp [plusNames_false, joined, hb, intercalate_cons, List.map_map, Function.comp_def]
    | false => simp [plusNames_true bits es, hb]

theorem bitsToStr_prints (q : Bool) {bits : List UInt8} {es : ValueStrs} (h : ∀ e ∈ es, e.1 / 8 < bits.length) :
    PrintsOn q (bitsToStr bits es) (bitsText bits es) := by
  refine strFn_prints fun buf _ => ?_
  rw [bitsLoop_first buf es h]
  unfold bitsText
  by_cases ha : es.all (fun e => !bitSet bits e.1)
  · have : es.filter (fun e => bitSet bits e.1) = [] := by
      rw [List.filter_eq_nil_iff]; simpa using ha
    simp [this, ha, when_true, printf_at]
  · rw [if_neg ha, bind_ok_str, plusNames_true]
    show StrBuf.when false _ _ = _
    rw [when_false]
    cases hf : es.filter (fun e => bitSet bits e.1) with
    | nil =>
      rw [List.filter_eq_nil_iff] at hf
      exact absurd (by rw [List.all_eq_true]; intro e he; simpa using hf e he) ha
    | cons e l => rfl

/-! #### IEs -/

/-- The separator of UE IP flags: none if the buffer is NULL. -/
def sepOn (q : Bool) : String := if q then "" else ","

theorem sb_comma (buf : CBuf) (t : Option Text) : (sbAt buf t).comma = lit (sepOn buf.isNone) := by
  cases buf <;> cases t <;> rfl

theorem sb_pos_none (buf : CBuf) : (sbAt buf none).pos = none := rfl

theorem sb_pos_some (buf : CBuf) (t : Text) : (sbAt buf (some t)).pos.isSome = !buf.isNone := by
  cases buf <;> rfl

theorem textIf_false (t : Text) : textIf false t = [] := rfl
theorem textIf_true (t : Text) : textIf true t = t := rfl

theorem lit_empty : lit "" = [] := rfl

theorem ueIpToStr_prints (q : Bool) (lib : LibText) (u : UeIp) :
    PrintsOn q (ueIpToStr lib u) (ieTextSep (sepOn q) lib (.ueIp u)) := by
  unfold ueIpToStr
  refine strFn_prints fun buf hq => ?_
  subst hq
  rcases u with ⟨chv6, chv4, isDest, ip, dp, d, pp, p⟩
  have hip := ipAddrsToStr_prints buf.isNone lib ip
  cases buf with
  | none =>
    cases chv4 <;> cases chv6 <;> cases isDest <;>
      simp [when_true, when_false, printf_at, sb_pos_none, sb_pos_some, append_at _ hip, when_printf_at,
        ieTextSep, sepOn, lit_empty, sb_comma, textIf_false, textIf_true]
  | some w =>
    cases chv4 <;> cases chv6 <;> cases isDest <;>
      simp [when_true, when_false, printf_at, sb_pos_none, sb_pos_some, append_at _ hip, when_printf_at,
        ieTextSep, sepOn, sb_comma, textIf_false, textIf_true]

theorem ohcStrs_small : ∀ e ∈ ohcStrs, e.1 / 8 < 2 := by decide
theorem upFeatureStrs_small : ∀ e ∈ upFeatureStrs, e.1 / 8 < 6 := by decide
theorem cpFeatureStrs_small : ∀ e ∈ cpFeatureStrs, e.1 / 8 < 1 := by decide
theorem applyActionStrs_small : ∀ e ∈ applyActionStrs, e.1 / 8 < 2 := by decide

theorem ohcToStr_prints (q : Bool) (lib : LibText) (o : Ohc) (h : o.desc.length = 2) :
    PrintsOn q (ohcToStr lib o) (ieTextSep (sepOn q) lib (.ohc o)) := by
  unfold ohcToStr
  refine strFn_prints fun buf hq => ?_
  have hb := bitsToStr_prints buf.isNone (bits := o.desc) (es := ohcStrs) (by rw [h]; exact ohcStrs_small)
  have hip := ipAddrsToStr_prints buf.isNone lib o.ip
  simp [append_at _ hb, append_at _ hip, when_printf_at, printf_at, ieTextSep]

theorem ieToStr_prints (q : Bool) (lib : LibText) (v : IeVal) (h : ArraySizes v) :
    PrintsOn q (ieToStr lib v) (ieTextSep (sepOn q) lib v) := by
  cases v with
  | cause v => exact snprintf_prints q _
  | offendingIe v => exact snprintf_prints q _
  | u8 v => exact snprintf_prints q _
  | u16 v => exact snprintf_prints q _
  | u32 v => exact snprintf_prints q _
  | ifaceType v => exact snprintf_prints q _
  | sourceIface v => exact snprintf_prints q _
  | destIface v => exact snprintf_prints q _
  | networkInst s => exact snprintf_prints q _
  | apr s => exact snprintf_prints q _
  | upFeatures bits => exact bitsToStr_prints q (by rw [show bits.length = 6 from h]; exact upFeatureStrs_small)
  | cpFeatures bits => exact bitsToStr_prints q (by rw [show bits.length = 1 from h]; exact cpFeatureStrs_small)
  | applyAction bits => exact bitsToStr_prints q (by rw [show bits.length = 2 from h]; exact applyActionStrs_small)
  | ohc o => exact ohcToStr_prints q lib o h
  | ueIp u => exact ueIpToStr_prints q lib u
  | nodeId n =>
    show PrintsOn q (nodeIdToStr lib n) _
    unfold nodeIdToStr
    refine strFn_prints fun buf hq => ?_
    cases n <;> simp [printf_at, ieTextSep]
  | fSeid f =>
    show PrintsOn q (fSeidToStr lib f) _
    unfold fSeidToStr
    refine strFn_prints fun buf hq => ?_
    have hip := ipAddrsToStr_prints buf.isNone lib f.ip
    simp [printf_at, append_at _ hip, ieTextSep]
  | fTeid f =>
    show PrintsOn q (fTeidToStr lib f) _
    unfold fTeidToStr
    refine strFn_prints fun buf hq => ?_
    cases f with
    | fixed teid ip =>
      have hip := ipAddrsToStr_prints buf.isNone lib ip
      simp [printf_at, append_at _ hip, ieTextSep]
    | choose a b c d => simp [printf_at, when_printf_at, ieTextSep]
  | ohr o =>
    show PrintsOn q (ohrToStr o) _
    unfold ohrToStr
    refine strFn_prints fun buf hq => ?_
    simp [printf_at, when_printf_at, ieTextSep]

/-! #### Structs -/

/-- Prints a text, or nothing at all (not even a NUL) if it is empty. -/
def PrintsIfAny (q : Bool) (f : StrFn) (t : Text) : Prop :=
  if t = [] then ∀ buf : CBuf, buf.isNone = q → f buf = .ok (buf, .ok 0) else PrintsOn q f t

theorem append_ifAny {buf : CBuf} {f : StrFn} {u : Text} (t : Text) (h : PrintsIfAny buf.isNone f u) :
    (sbAt buf (some t)).append f = .ok (sbAt buf (some (t ++ u))) := by
  unfold PrintsIfAny at h
  split at h
  · rename_i hu; rw [hu, List.append_nil]; exact append_silent t h
  · exact append_at (some t) h

/-- An entry of a coding table prints its values, each with a text. -/
def EntryPrints {A : Type} (q : Bool) (how : StrHow A) (txt : Val A → Text) (v : Val A) : Prop :=
  match how with
  | .nested f => ∃ u, txt v = lit "{" ++ u ++ lit " }" ∧ PrintsIfAny q (f v) u
  | .func (some f) => PrintsOn q (f v) (txt v)
  | .func none => txt v = lit "(enc_to_str_func==NULL)"

theorem strValue_prints {A : Type} {buf : CBuf} {c : StrCoding A} {txt : Val A → Text} {v : Val A} (t : Text)
    (h : EntryPrints buf.isNone c.how txt v) :
    strValue c v (sbAt buf (some t)) = .ok (sbAt buf (some (t ++ txt v))) := by
  unfold strValue
  unfold EntryPrints at h
  cases hh : c.how with
  | nested f =>
    rw [hh] at h
    obtain ⟨u, e, hp⟩ := h
    simp [printf_at, append_ifAny _ hp, e]
  | func g =>
    rw [hh] at h
    cases g with
    | none => simp at h; simp [printf_at, h]
    | some f => simp at h; simp [append_at _ h]

/-- The texts with separators, from the `i`-th value on. -/
def sepTexts : List Text → Nat → Text
  | [], _ => []
  | t :: ts, i => textIf (decide (i > 0)) (lit ", ") ++ t ++ sepTexts ts (i + 1)

theorem strValues_prints {A : Type} {buf : CBuf} {c : StrCoding A} {txt : Val A → Text} :
    ∀ (vs : List (Val A)) (i : Nat) (t : Text), (∀ j, j < i + vs.length → c.kind.exceeds j = false) →
    (∀ v ∈ vs, EntryPrints buf.isNone c.how txt v) →
    strValues c vs i (sbAt buf (some t)) = .ok (sbAt buf (some (t ++ sepTexts (vs.map txt) i)), false)
  | [], i, t, _, _ => by simp [strValues, sepTexts]
  | v :: vs, i, t, hk, hv => by
    unfold strValues
    rw [hk i (by simp), if_neg (by simp), when_printf_at, bind_ok_str,
      strValue_prints _ (hv v (by simp)), bind_ok_str,
      strValues_prints vs (i + 1) _ (fun j hj => hk j (by simp; omega)) (fun w hw => hv w (List.mem_cons_of_mem _ hw))]
    simp [sepTexts]

theorem sepTexts_later : ∀ (ts : List Text) (i : Nat), i > 0 → sepTexts ts i = (ts.map fun u => lit ", " ++ u).flatten
  | [], _, _ => rfl
  | t :: ts, i, h => by
    unfold sepTexts
    rw [sepTexts_later ts (i + 1) (by omega)]
    simp [textIf, h]

theorem sepTexts_zero (t : Text) (ts : List Text) : sepTexts (t :: ts) 0 = joined ", " (t :: ts) := by
  unfold sepTexts
  rw [sepTexts_later _ _ (by omega), joined, intercalate_cons]
  simp [textIf]

/-- The text of a table, with a text per entry. -/
def tableText {A : Type} (names : ValueStrs) : List (StrCoding A × (Val A → Text)) → Struct A → Text
  | (c, txt) :: cs, vs :: s =>
    (if vs.isEmpty then []
      else lit " '" ++ valueStr names c.tag ++ lit "'=" ++ valuesText c.kind (vs.map txt)) ++ tableText names cs s
  | _, _ => []

/-- All members have values that the entries can print, and counts within limits. -/
def TablePrints {A : Type} (q : Bool) : List (StrCoding A × (Val A → Text)) → Struct A → Prop
  | [], _ => True
  | (c, txt) :: cs, vs :: s =>
    CountOk c.kind vs.length ∧ (∀ v ∈ vs, EntryPrints q c.how txt v) ∧ TablePrints q cs s
  | _ :: _, [] => False

theorem exceeds_of_count {k : Kind} {n : Nat} (h : CountOk k n) : ∀ j, j < n → k.exceeds j = false := by
  intro j hj
  cases k with
  | mand => rfl
  | opt => rfl
  | multi max m =>
    have : n ≤ max := h
    simp [Kind.exceeds]; omega

theorem membVals_of_count {A : Type} {k : Kind} {vs : List (Val A)} (h : CountOk k vs.length) : membVals k vs = some vs := by
  cases k with
  | mand =>
    cases vs with
    | nil => simp [CountOk] at h
    | cons v l => simp [CountOk] at h; subst h; rfl
  | opt =>
    cases vs with
    | nil => rfl
    | cons v l => simp [CountOk] at h; subst h; rfl
  | multi a b => rfl

theorem strTable_prints {A : Type} (names : ValueStrs) (buf : CBuf) :
    ∀ (cs : List (StrCoding A × (Val A → Text))) (s : Struct A) (o : Option Text), TablePrints buf.isNone cs s →
    strTable names (cs.map Prod.fst) s (sbAt buf o) =
      if tableText names cs s = [] then .ok ((sbAt buf o).buf, .ok (sbAt buf o).needed)
      else .ok (fill buf (o.getD [] ++ tableText names cs s), .ok (o.getD [] ++ tableText names cs s).length)
  | [], s, o, _ => by
    have : tableText names ([] : List (StrCoding A × (Val A → Text))) s = [] := by unfold tableText; rfl
    simp [this, strTable]
  | (c, txt) :: cs, [], o, h => False.elim h
  | (c, txt) :: cs, vs :: s, o, h => by
    obtain ⟨hc, hv, ht⟩ := h
    rw [List.map_cons]
    unfold strTable
    rw [membVals_of_count hc]
    cases vs with
    | nil =>
      have ih := strTable_prints names buf cs s o ht
      simp only [ih, tableText, List.isEmpty_nil, if_true, List.nil_append]
    | cons v vs =>
      have hne : tableText names ((c, txt) :: cs) ((v :: vs) :: s) ≠ [] := by
        have : lit " '" ≠ [] := by decide
        simp [tableText, this]
      have ih := fun t => strTable_prints names buf cs s (some t) ht
      have hx := exceeds_of_count hc
      have hvals := fun t => strValues_prints (buf := buf) (c := c) (txt := txt) (v :: vs) 0 t
        (fun j hj => hx j (by simpa using hj)) hv
      have key : ∀ t, (strTable names (cs.map Prod.fst) s (sbAt buf (some t))) =
          .ok (fill buf (t ++ tableText names cs s), .ok (t ++ tableText names cs s).length) := by
        intro t
        rw [ih t]
        split
        · rename_i e; simp [e, sbAt]
        · rfl
      rw [if_neg hne]
      show ((sbAt buf o).printf _).bind _ = _
      rw [printf_at, bind_ok_str]
      cases hk : c.kind with
      | mand =>
        rw [hk] at hc
        have hl : vs = [] := by simpa [CountOk] using hc
        subst hl
        simp only [Kind.isMulti, when_false, bind_ok_str, hvals, key]
        simp [tableText, hk, valuesText, sepTexts, textIf]
      | opt =>
        rw [hk] at hc
        have hl : vs = [] := by simpa [CountOk] using hc
        subst hl
        simp only [Kind.isMulti, when_false, bind_ok_str, hvals, key]
        simp [tableText, hk, valuesText, sepTexts, textIf]
      | multi a b =>
        simp only [Kind.isMulti, when_true, printf_at, bind_ok_str, hvals, key]
        simp only [List.map_cons, sepTexts_zero]
        simp [tableText, hk, valuesText]

theorem gtlvsToStr_prints {A : Type} (q : Bool) (names : ValueStrs) (cs : List (StrCoding A × (Val A → Text))) (s : Struct A)
    (h : TablePrints q cs s) :
    PrintsIfAny q (gtlvsToStr names s (some (cs.map Prod.fst))) (tableText names cs s) := by
  unfold PrintsIfAny
  have key : ∀ buf : CBuf, buf.isNone = q → gtlvsToStr names s (some (cs.map Prod.fst)) buf =
      if tableText names cs s = [] then .ok (buf, .ok 0)
      else .ok (fill buf (tableText names cs s), .ok (tableText names cs s).length) := by
    intro buf hq
    subst hq
    exact strTable_prints names buf cs s none h
  split
  · intro buf hq
    rw [key buf hq, if_pos (by assumption)]
  · intro buf hq
    rw [key buf hq, if_neg (by assumption)]

/-! #### The tables of PFCP -/

/-- The entries of a table with the texts of their values. -/
def Fields.printers (sep : String) (lib : LibText) : Fields → List (StrCoding IeVal × (Val IeVal → Text))
  | .nil => []
  | .cons tag kind ty f =>
    ({ tag := tag, kind := kind, how := ty.strHow lib }, valTextSep sep lib ty) :: f.printers sep lib

theorem printers_fst (sep : String) (lib : LibText) : ∀ f : Fields, (f.printers sep lib).map Prod.fst = f.strCodings lib
  | .nil => rfl
  | .cons tag kind ty f => by simp [Fields.printers, Fields.strCodings, printers_fst sep lib f]

theorem tableText_printers (sep : String) (lib : LibText) : ∀ (f : Fields) (s : Struct IeVal),
    tableText ieiStrs (f.printers sep lib) s = structTextSep sep lib f s
  | .nil, s => by simp [Fields.printers, tableText, structTextSep]
  | .cons tag kind ty f, [] => by simp [Fields.printers, tableText, structTextSep]
  | .cons tag kind ty f, vs :: s => by
    simp only [Fields.printers, tableText, structTextSep, tableText_printers sep lib f s]

mutual
theorem ty_prints (q : Bool) (lib : LibText) : ∀ (ty : Ty) (v : Val IeVal), ValTyped ty v →
    EntryPrints q (ty.strHow lib) (valTextSep (sepOn q) lib ty) v
  | .ie k, .leaf v, h => by
    have h' : v.kind = k ∧ ArraySizes v := by simpa [ValTyped] using h
    simp only [EntryPrints, Ty.strHow, ieStrFn, if_pos h'.1, valTextSep]
    exact ieToStr_prints q lib v h'.2
  | .ie k, .node s, h => by simp [ValTyped] at h
  | .group f, .leaf v, h => by simp [ValTyped] at h
  | .group f, .node s, h => by
    have h' : StructTyped f s := by simpa [ValTyped] using h
    simp only [EntryPrints, Ty.strHow]
    refine ⟨structTextSep (sepOn q) lib f s, by simp only [valTextSep], ?_⟩
    have := gtlvsToStr_prints q ieiStrs (f.printers (sepOn q) lib) s (fields_prints q lib f s h')
    rwa [printers_fst, tableText_printers] at this
theorem fields_prints (q : Bool) (lib : LibText) : ∀ (f : Fields) (s : Struct IeVal), StructTyped f s →
    TablePrints q (f.printers (sepOn q) lib) s
  | .nil, s, _ => by simp [Fields.printers, TablePrints]
  | .cons tag kind ty f, [], h => by simp [StructTyped] at h
  | .cons tag kind ty f, vs :: s, h => by
    have h' : CountOk kind vs.length ∧ (∀ v ∈ vs, ValTyped ty v) ∧ StructTyped f s := by simpa [StructTyped] using h
    exact ⟨h'.1, fun v hv => ty_prints q lib ty v (h'.2.1 v hv), fields_prints q lib f s h'.2.2⟩
end

theorem struct_prints (q : Bool) (lib : LibText) {f : Fields} {s : Struct IeVal} (h : StructTyped f s) :
    PrintsIfAny q (gtlvsToStr ieiStrs s (some (f.strCodings lib))) (structTextSep (sepOn q) lib f s) := by
  have := gtlvsToStr_prints q ieiStrs (f.printers (sepOn q) lib) s (fields_prints q lib f s h)
  rwa [printers_fst, tableText_printers] at this

theorem msg_prints (q : Bool) (lib : LibText) {m : PMsg} {f : Fields} (hf : msgFields m.h.type = some f)
    (h : StructTyped f m.ies) : PrintsOn q (msgToStr lib m) (msgTextSep (sepOn q) lib f m) := by
  unfold msgToStr
  refine strFn_prints fun buf hq => ?_
  subst hq
  have hs : PrintsIfAny buf.isNone (iesToStr lib m.h.type m.ies) (structTextSep (sepOn buf.isNone) lib f m.ies) := by
    unfold iesToStr
    rw [hf]
    exact struct_prints buf.isNone lib h
  simp [printf_at, when_printf_at, append_ifAny _ hs, msgTextSep]

/-! #### From the relations of the proofs to those of the specification -/

theorem printed_wr (t : Text) (w : List UInt8) : Printed t w (wr w t) := by
  refine ⟨wr_length w t, fun h0 => ?_⟩
  have hne : w.length ≠ 0 := by omega
  have hl : (t.take (w.length - 1)).length = min t.length (w.length - 1) := by rw [List.length_take]; omega
  have ht : t.take (min t.length (w.length - 1)) = t.take (w.length - 1) := by
    by_cases hle : t.length ≤ w.length - 1
    · rw [Nat.min_eq_left hle, List.take_of_length_le (Nat.le_refl _), List.take_of_length_le hle]
    · rw [Nat.min_eq_right (by omega)]
  unfold wr
  rw [if_neg hne]
  refine ⟨?_, ?_, ?_⟩
  · rw [List.take_append_of_le_length (by omega), ← hl, List.take_length, hl, ht]
  · rw [List.getElem?_append_right (by omega), hl]
    simp
  · intro i hi
    rw [List.getElem?_append_right (by omega), hl]
    obtain ⟨d, rfl⟩ : ∃ d, i = min t.length (w.length - 1) + 1 + d := ⟨i - (min t.length (w.length - 1) + 1), by omega⟩
    rw [show min t.length (w.length - 1) + 1 + d - min t.length (w.length - 1) = d + 1 by omega, List.getElem?_cons_succ,
      List.getElem?_drop]

theorem PrintsOn.like {f : StrFn} {t : Text} (h : PrintsOn false f t) : PrintsLikeSnprintf f t :=
  fun w => ⟨wr w t, h (some w) rfl, printed_wr t w⟩

theorem PrintsOn.null {f : StrFn} {t : Text} (h : PrintsOn true f t) : CountsWithNull f t := h none rfl

theorem like_wr {f : StrFn} {t : Text} (h : PrintsLikeSnprintf f t) (w : List UInt8) (hw : t.length < w.length) :
    ∃ junk, f (some w) = .ok (some (t ++ 0 :: junk), .ok t.length) := by
  obtain ⟨w', e, hl, hp⟩ := h w
  obtain ⟨h1, h2, -⟩ := hp (by omega)
  have hm : min t.length (w.length - 1) = t.length := by omega
  rw [hm] at h1 h2
  rw [List.take_of_length_le (Nat.le_refl _)] at h1
  refine ⟨w'.drop (t.length + 1), ?_⟩
  rw [e]
  have : w' = t ++ 0 :: w'.drop (t.length + 1) := by
    have hlt : t.length < w'.length := by omega
    rw [List.getElem?_eq_getElem hlt] at h2
    have h3 := List.take_append_drop t.length w'
    rw [List.drop_eq_getElem_cons hlt, h1] at h3
    rw [← h3]
    simp only [Option.some.injEq] at h2
    simp [h2]
  rw [← this]

theorem nameC_holds {f : StrFn} {t : Text} (h : PrintsLikeSnprintf f t) (fresh : Nat → List UInt8)
    (hfresh : ∀ n, (fresh n).length = n) (size : Nat) : ∃ mem, nameC fresh size f = .ok mem ∧ HoldsString mem t := by
  unfold nameC
  by_cases hs : t.length < size
  · obtain ⟨junk, e⟩ := like_wr h (fresh size) (by rw [hfresh]; exact hs)
    rw [e, bind_ok_str]
    simp only [hs, if_true]
    exact ⟨_, rfl, junk, rfl⟩
  · obtain ⟨w', e, -⟩ := h (fresh size)
    obtain ⟨junk, e2⟩ := like_wr h (fresh (t.length + 1)) (by rw [hfresh]; omega)
    rw [e, bind_ok_str]
    simp only [hs, if_false, e2, bind_ok_str, Nat.lt_succ_self, if_true]
    exact ⟨_, rfl, junk, rfl⟩

mutual
theorem valText_no_flag (s1 s2 : String) (lib : LibText) : ∀ (ty : Ty) (v : Val IeVal), ¬ HasUeIpFlag ty v →
    valTextSep s1 lib ty v = valTextSep s2 lib ty v
  | .ie k, .leaf v, h => by
    simp only [valTextSep]
    cases v with
    | ueIp u =>
      have h' : ¬ (u.chv4 = true ∨ u.chv6 = true ∨ u.isDest = true) := by simpa only [HasUeIpFlag] using h
      have a : u.chv4 = false := by cases hu : u.chv4 <;> simp_all
      have b : u.chv6 = false := by cases hu : u.chv6 <;> simp_all
      have c : u.isDest = false := by cases hu : u.isDest <;> simp_all
      simp [ieTextSep, a, b, c, textIf_false]
    | nodeId n => cases n <;> rfl
    | fTeid n => cases n <;> rfl
    | _ => rfl
  | .ie k, .node s, _ => by simp only [valTextSep]
  | .group f, .leaf v, _ => by simp only [valTextSep]
  | .group f, .node s, h => by
    have h' : ¬ HasUeIpFlags f s := by simpa only [HasUeIpFlag] using h
    simp only [valTextSep, structText_no_flag s1 s2 lib f s h']
theorem structText_no_flag (s1 s2 : String) (lib : LibText) : ∀ (f : Fields) (s : Struct IeVal), ¬ HasUeIpFlags f s →
    structTextSep s1 lib f s = structTextSep s2 lib f s
  | .nil, s, _ => by simp only [structTextSep]
  | .cons tag kind ty f, [], _ => by simp only [structTextSep]
  | .cons tag kind ty f, vs :: s, h => by
    have h' : (¬ ∃ v ∈ vs, HasUeIpFlag ty v) ∧ ¬ HasUeIpFlags f s := by
      simpa only [HasUeIpFlags, not_or] using h
    have hm : vs.map (fun v => valTextSep s1 lib ty v) = vs.map (fun v => valTextSep s2 lib ty v) :=
      List.map_congr_left fun v hv => valText_no_flag s1 s2 lib ty v fun hx => h'.1 ⟨v, hv, hx⟩
    simp only [structTextSep, hm, structText_no_flag s1 s2 lib f s h'.2]
end

end Verif
