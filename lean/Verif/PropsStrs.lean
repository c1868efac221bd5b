/-
C68-C70: printing.
-/
import Verif.StrsLemmas
import Verif.PropsMsg2

namespace Verif.Props

open Verif Verif.Spec

/-! ### C68: `*_to_str_buf()` prints like snprintf() -/

/-- Every IE value prints its text, to buffers of any size. -/
theorem C68_ie (lib : LibText) (v : IeVal) (h : ArraySizes v) : PrintsLikeSnprintf (ieToStr lib v) (ieText lib v) :=
  (ieToStr_prints false lib v h).like

/-- Addresses, also where a function gets NULL. -/
theorem C68_addresses (lib : LibText) (a : Option IpAddrs) :
    PrintsLikeSnprintf (ipAddrsToStr lib a)
      (match a with
        | some a => ipText lib a
        | none => lit "NULL-addr") := by
  cases a with
  | none =>
    refine PrintsOn.like ?_
    unfold ipAddrsToStr
    refine strFn_prints fun buf hq => ?_
    simp [printf_at]
  | some a => exact (ipAddrsToStr_prints false lib a).like

/-- Bit fields, for any table of names within the array. -/
theorem C68_bits (bits : List UInt8) (names : ValueStrs) (h : ∀ e ∈ names, e.1 / 8 < bits.length) :
    PrintsLikeSnprintf (bitsToStr bits names) (bitsText bits names) := (bitsToStr_prints false h).like

/-- Tags. -/
theorem C68_tag (names : Option ValueStrs) (ti : TagInst) :
    PrintsLikeSnprintf (tagInstToStr names ti) (tagText names ti) ∧ CountsWithNull (tagInstToStr names ti) (tagText names ti) := by
  have key : ∀ q, PrintsOn q (tagInstToStr names ti) (tagText names ti) := by
    intro q
    unfold tagInstToStr
    refine strFn_prints fun buf hq => ?_
    cases names <;> rcases ti with ⟨t, _ | i⟩ <;> simp [printf_at, tagText]
  exact ⟨(key false).like, (key true).null⟩

/-- Every message of a supported type prints its text, to buffers of any size. -/
theorem C68_message (lib : LibText) (m : PMsg) (f : Fields) (hf : message m.h.type = some f)
    (h : StructTyped f m.ies) : PrintsLikeSnprintf (msgToStr lib m) (msgText lib f m) :=
  (msg_prints false lib ((msgFields_eq _).trans hf) h).like

mutual
theorem valTyped_of : ∀ (ty : Ty) (v : Val IeVal), ValOf Decodable ty v → ValTyped ty v
  | .ie k, .leaf v, h => by
    have h' : v.kind = k ∧ Decodable v := by simpa only [ValOf] using h
    simp only [ValTyped]
    refine ⟨h'.1, ?_⟩
    rcases h'.2 with h | ⟨s, rfl⟩ | ⟨s, rfl⟩
    · cases v with
      | ohc o => exact h.1
      | upFeatures b => exact h
      | cpFeatures b => exact h
      | applyAction b => exact h
      | _ => trivial
    · trivial
    · trivial
  | .ie k, .node s, h => by simp [ValOf] at h
  | .group f, .leaf v, h => by simp [ValOf] at h
  | .group f, .node s, h => by
    have h' : StructOf Decodable f s := by simpa only [ValOf] using h
    simp only [ValTyped]
    exact structTyped_of f s h'
theorem structTyped_of : ∀ (f : Fields) (s : Struct IeVal), StructOf Decodable f s → StructTyped f s
  | .nil, [], _ => by simp [StructTyped]
  | .nil, _ :: _, h => by simp [StructOf] at h
  | .cons tag kind ty f, [], h => by simp [StructOf] at h
  | .cons tag kind ty f, vs :: s, h => by
    have h' : (least kind ≤ vs.length ∧ vs.length ≤ most kind) ∧ (∀ v ∈ vs, ValOf Decodable ty v) ∧
        StructOf Decodable f s := by simpa only [StructOf] using h
    simp only [StructTyped]
    refine ⟨?_, fun v hv => valTyped_of ty v (h'.2.1 v hv), structTyped_of f s h'.2.2⟩
    cases kind with
    | mand => have := h'.1; simp only [least, most, CountOk] at this ⊢; omega
    | opt => have := h'.1.2; simpa only [most, CountOk] using this
    | multi a b => have := h'.1.2; simpa only [most, CountOk] using this
end

/-- So does every message as it was received: whatever octets came, if the header and the IEs were decoded, the message
can be printed. -/
theorem C68_received (lib : LibText) (d : DecHdr) (hw : d.tlvLen ≤ d.tlvMem.length) (s : Struct IeVal)
    (h : decodeTlv d = .ok s) (m : PMsg) (hm : m.h = d.h) (hi : m.ies = s) :
    ∃ f, message d.h.type = some f ∧ PrintsLikeSnprintf (msgToStr lib m) (msgText lib f m) := by
  obtain ⟨f, hf, hs⟩ := C67_decoded_is_well_formed d hw s h
  exact ⟨f, hf, C68_message lib m f (by rw [hm]; exact hf) (by rw [hi]; exact structTyped_of f s hs)⟩

/-- Log lines, for messages with and without Cause. -/
theorem C68_log_info (lib : LibText) (m : PMsg) (cause : Option Nat)
    (h : m.cause = cause.map fun c => [.leaf (.cause c)]) :
    PrintsLikeSnprintf (msgLogInfo lib (some m))
      (logText lib (if m.ctx.sessionFi.isSome then m.ctx.sessionFi else m.ctx.peerFi) cause m) ∧
    CountsWithNull (msgLogInfo lib (some m))
      (logText lib (if m.ctx.sessionFi.isSome then m.ctx.sessionFi else m.ctx.peerFi) cause m) := by
  have key : ∀ q, PrintsOn q (msgLogInfo lib (some m))
      (logText lib (if m.ctx.sessionFi.isSome then m.ctx.sessionFi else m.ctx.peerFi) cause m) := by
    intro q
    unfold msgLogInfo
    refine strFn_prints fun buf hq => ?_
    have e : (m.ctx.sessionFi <|> m.ctx.peerFi) = if m.ctx.sessionFi.isSome then m.ctx.sessionFi else m.ctx.peerFi := by
      cases m.ctx.sessionFi <;> simp
    rw [e, h]
    generalize (if m.ctx.sessionFi.isSome then m.ctx.sessionFi else m.ctx.peerFi) = fi
    cases fi <;> cases cause <;> cases hr : m.rx <;> simp [printf_at, when_printf_at, logText, causeNr, hr]
  exact ⟨(key false).like, (key true).null⟩

/-- Log lines of messages that have a Cause member which nobody has set, such as a response that was just allocated: the
member is zero, and that is the number which gets printed. -/
theorem C68_log_info_unset (lib : LibText) (m : PMsg) (h : m.cause = some []) :
    PrintsLikeSnprintf (msgLogInfo lib (some m))
      (logText lib (if m.ctx.sessionFi.isSome then m.ctx.sessionFi else m.ctx.peerFi) (some 0) m) ∧
    CountsWithNull (msgLogInfo lib (some m))
      (logText lib (if m.ctx.sessionFi.isSome then m.ctx.sessionFi else m.ctx.peerFi) (some 0) m) := by
  have key : ∀ q, PrintsOn q (msgLogInfo lib (some m))
      (logText lib (if m.ctx.sessionFi.isSome then m.ctx.sessionFi else m.ctx.peerFi) (some 0) m) := by
    intro q
    unfold msgLogInfo
    refine strFn_prints fun buf hq => ?_
    have e : (m.ctx.sessionFi <|> m.ctx.peerFi) = if m.ctx.sessionFi.isSome then m.ctx.sessionFi else m.ctx.peerFi := by
      cases m.ctx.sessionFi <;> simp
    rw [e, h]
    generalize (if m.ctx.sessionFi.isSome then m.ctx.sessionFi else m.ctx.peerFi) = fi
    cases fi <;> cases hr : m.rx <;> simp [printf_at, when_printf_at, logText, causeNr, hr]
  exact ⟨(key false).like, (key true).null⟩

/-- A log line for NULL. -/
theorem C68_log_info_null (lib : LibText) : PrintsLikeSnprintf (msgLogInfo lib none) (lit "NULL") := by
  refine PrintsOn.like ?_
  unfold msgLogInfo
  refine strFn_prints fun buf hq => ?_
  simp [printf_at]

theorem structText_empty (sep : String) (lib : LibText) : ∀ (f : Fields) (s : Struct IeVal), StructTyped f s →
    (structTextSep sep lib f s = [] ↔ ∀ vs ∈ s, vs = [])
  | .nil, [], _ => by simp [structTextSep]
  | .nil, _ :: _, h => by simp [StructTyped] at h
  | .cons tag kind ty f, [], h => by simp [StructTyped] at h
  | .cons tag kind ty f, vs :: s, h => by
    have h' : CountOk kind vs.length ∧ (∀ v ∈ vs, ValTyped ty v) ∧ StructTyped f s := by simpa only [StructTyped] using h
    have ih := structText_empty sep lib f s h'.2.2
    simp only [structTextSep]
    cases vs with
    | nil => simp [ih]
    | cons v l =>
      have : lit " '" ≠ [] := by decide
      simp [this]

/-- Structs of any PFCP coding table print their text, if there is at least one IE. -/
theorem C68_struct_partial (lib : LibText) (f : Fields) (s : Struct IeVal) (h : StructTyped f s)
    (hne : ∃ vs ∈ s, vs ≠ []) :
    PrintsLikeSnprintf (gtlvsToStr ieiStrs s (some (f.strCodings lib))) (structText lib f s) := by
  have := struct_prints false lib h
  unfold PrintsIfAny at this
  rw [if_neg ?_] at this
  · exact this.like
  · intro e
    obtain ⟨vs, hm, hx⟩ := hne
    exact hx ((structText_empty _ lib f s h).1 e vs hm)

/-- C68 fails without any IE: the buffer, whatever is in it, is left as it is, without a NUL. -/
theorem C68_counterexample_no_ie (lib : LibText) (f : Fields) (s : Struct IeVal) (h : StructTyped f s)
    (he : ∀ vs ∈ s, vs = []) :
    (∀ w, gtlvsToStr ieiStrs s (some (f.strCodings lib)) (some w) = .ok (some w, .ok 0)) ∧
    ¬ ∃ t, PrintsLikeSnprintf (gtlvsToStr ieiStrs s (some (f.strCodings lib))) t := by
  have hs := struct_prints false lib h
  unfold PrintsIfAny at hs
  rw [if_pos ((structText_empty _ lib f s h).2 he)] at hs
  refine ⟨fun w => hs (some w) rfl, ?_⟩
  rintro ⟨t, ht⟩
  obtain ⟨w', e, -, hp⟩ := ht [1]
  rw [hs (some [1]) rfl] at e
  simp only [Res.ok.injEq, Prod.mk.injEq, Option.some.injEq, Except.ok.injEq] at e
  have h2 := (hp (by simp)).2.1
  rw [← e.1] at h2
  simp [← e.2] at h2

/-- With NULL the length of the text is returned, if the struct contains no UE IP address with a flag. -/
theorem C68_null_partial (lib : LibText) (m : PMsg) (f : Fields) (hf : message m.h.type = some f)
    (h : StructTyped f m.ies) (hu : ¬ HasUeIpFlags f m.ies) : CountsWithNull (msgToStr lib m) (msgText lib f m) := by
  have := (msg_prints true lib ((msgFields_eq _).trans hf) h).null
  unfold msgTextSep at this
  rw [structText_no_flag (sepOn true) "," lib f m.ies hu] at this
  exact this

/-- The same for IE values. -/
theorem C68_ie_null_partial (lib : LibText) (v : IeVal) (h : ArraySizes v)
    (hu : ∀ u, v = .ueIp u → u.chv4 = false ∧ u.chv6 = false ∧ u.isDest = false) :
    CountsWithNull (ieToStr lib v) (ieText lib v) := by
  have := (ieToStr_prints true lib v h).null
  have e := valText_no_flag (sepOn true) "," lib (.ie v.kind) (.leaf v) (by
    cases v with
    | ueIp u =>
      obtain ⟨a, b, c⟩ := hu u rfl
      simp [HasUeIpFlag, a, b, c]
    | _ => simp [HasUeIpFlag])
  simp only [valTextSep] at e
  rw [e] at this
  exact this

/-- C68 fails with NULL for a UE IP address with a flag: the length returned does not count the comma. -/
theorem C68_counterexample_null (lib : LibText) :
    ∃ u : UeIp, PrintsLikeSnprintf (ueIpToStr lib u) (lit "chv4,empty:-addr") ∧
      ueIpToStr lib u none = .ok (none, .ok (lit "chv4empty:-addr").length) ∧
      ¬ CountsWithNull (ueIpToStr lib u) (lit "chv4,empty:-addr") := by
  refine ⟨{ chv4 := true }, (ueIpToStr_prints false lib { chv4 := true }).like, ?_, ?_⟩
  · exact (ueIpToStr_prints true lib { chv4 := true }).null
  · intro h
    have := (ueIpToStr_prints true lib { chv4 := true }).null
    unfold CountsWithNull at h this
    rw [h] at this
    have e : (lit "chv4,empty:-addr").length = (lit "chv4").length + ((lit "").length + (lit "empty:-addr").length) := by
      simpa [ieTextSep, joined, List.intercalate, ipText, textIf, sepOn] using this
    exact absurd e (by decide)

/-- A message whose type is not supported. -/
def exUnsupported : PMsg := { remote := .unspec, h := { version := 1, type := 3, seq := 5 } }

/-- The text that it should have. -/
def exUnsupportedText : Text := lit "PFCPv1 PFD_MGMT_REQ hdr={seq=5} ies={ }"

/-- C68 fails for messages of unsupported types: the closing brace is counted, but not printed. -/
theorem C68_counterexample_unsupported (lib : LibText) :
    ∃ w', msgToStr lib exUnsupported (some (List.replicate 60 1)) = .ok (some w', .ok exUnsupportedText.length) ∧
      ¬ Printed exUnsupportedText (List.replicate 60 1) w' ∧ ¬ ∃ t, PrintsLikeSnprintf (msgToStr lib exUnsupported) t := by
  have e1 : msgToStr lib exUnsupported (some (List.replicate 60 1)) =
      .ok (some (lit "PFCPv1 PFD_MGMT_REQ hdr={seq=5} ies={" ++ 0 :: List.replicate 22 1), .ok 39) := rfl
  have e2 : msgToStr lib exUnsupported (some (List.replicate 60 2)) =
      .ok (some (lit "PFCPv1 PFD_MGMT_REQ hdr={seq=5} ies={" ++ 0 :: List.replicate 22 2), .ok 39) := rfl
  refine ⟨_, e1, ?_, ?_⟩
  · intro hp
    have := (hp.2 (by decide)).1
    exact absurd this (by decide)
  · rintro ⟨t, ht⟩
    obtain ⟨w1, h1, -, p1⟩ := ht (List.replicate 60 1)
    rw [e1] at h1
    simp only [Res.ok.injEq, Prod.mk.injEq, Option.some.injEq, Except.ok.injEq] at h1
    have := (p1 (by simp)).2.1
    rw [← h1.1, ← h1.2] at this
    exact absurd this (by decide)

theorem strValues_surplus {A : Type} {buf : CBuf} {c : StrCoding A} {txt : Val A → Text} {max m : Nat}
    (hk : c.kind = .multi max m) : ∀ (vs : List (Val A)) (i : Nat) (t : Text), i ≤ max → max < i + vs.length →
    (∀ v ∈ vs, EntryPrints buf.isNone c.how txt v) →
    ∃ t', strValues c vs i (sbAt buf (some t)) = .ok (sbAt buf (some t'), true)
  | [], i, t, h1, h2, _ => by simp at h2; omega
  | v :: vs, i, t, h1, h2, hv => by
    unfold strValues
    by_cases hi : max ≤ i
    · rw [if_pos (by simp [hk, Kind.exceeds]; omega)]
      exact ⟨t, rfl⟩
    · rw [if_neg (by simp [hk, Kind.exceeds]; omega), when_printf_at, bind_ok_str, strValue_prints _ (hv v (by simp)),
        bind_ok_str]
      exact strValues_surplus hk vs (i + 1) _ (by omega) (by simp at h2; omega) (fun w hw => hv w (List.mem_cons_of_mem _ hw))

/-- A count that exceeds its array is an error, and values behind the array are not read. -/
theorem C68_surplus (lib : LibText) (f : Fields) (tag max m : Nat) (ty : Ty) (vs : List (Val IeVal)) (s : Struct IeVal)
    (hv : ∀ v ∈ vs, ValTyped ty v) (hc : max < vs.length) (w : List UInt8) :
    ∃ w', gtlvsToStr ieiStrs (vs :: s) (some ((Fields.cons tag (.multi max m) ty f).strCodings lib)) (some w) =
      .ok (some w', .error .ENOTSUP) := by
  cases vs with
  | nil => simp at hc
  | cons v vs =>
    have hp : ∀ x ∈ v :: vs, EntryPrints (some w : CBuf).isNone (ty.strHow lib) (valTextSep "," lib ty) x :=
      fun x hx => ty_prints false lib ty x (hv x hx)
    obtain ⟨t', e⟩ := strValues_surplus (buf := some w)
      (c := { tag := tag, kind := .multi max m, how := ty.strHow lib }) rfl (v :: vs) 0
      (lit " '" ++ valueStr ieiStrs tag ++ lit "'=" ++ lit "{ ") (by omega) (by simpa using hc) hp
    refine ⟨wr w t', ?_⟩
    simp only [gtlvsToStr, Fields.strCodings, strTable, membVals]
    rw [show ({ buf := some w } : StrBuf) = sbAt (some w) none from rfl, printf_at, bind_ok_str]
    simp only [Kind.isMulti, when_true, printf_at, Option.getD_some, Option.getD_none, List.nil_append, bind_ok_str]
    rw [e]
    rfl

/-- Concrete texts. -/
def exLib : LibText where
  sockaddr := fun
    | .inet _ _ => lit "192.0.2.1"
    | _ => lit "?"
  quote := fun s => lit "\"" ++ s ++ lit "\""
  fsmName := fun _ => lit "peer"
  fsmState := fun _ => lit "ASSOCIATED"

mutual
theorem valOf_mono {p q : IeVal → Prop} (hpq : ∀ v, p v → q v) : ∀ (ty : Ty) (v : Val IeVal), ValOf p ty v → ValOf q ty v
  | .ie k, .leaf v, h => by
    have h' : v.kind = k ∧ p v := by simpa only [ValOf] using h
    simp only [ValOf]
    exact ⟨h'.1, hpq v h'.2⟩
  | .ie k, .node s, h => by simp [ValOf] at h
  | .group f, .leaf v, h => by simp [ValOf] at h
  | .group f, .node s, h => by
    have h' : StructOf p f s := by simpa only [ValOf] using h
    simp only [ValOf]
    exact structOf_mono hpq f s h'
theorem structOf_mono {p q : IeVal → Prop} (hpq : ∀ v, p v → q v) : ∀ (f : Fields) (s : Struct IeVal),
    StructOf p f s → StructOf q f s
  | .nil, [], _ => by simp [StructOf]
  | .nil, _ :: _, h => by simp [StructOf] at h
  | .cons tag kind ty f, [], h => by simp [StructOf] at h
  | .cons tag kind ty f, vs :: s, h => by
    have h' : (least kind ≤ vs.length ∧ vs.length ≤ most kind) ∧ (∀ v ∈ vs, ValOf p ty v) ∧ StructOf p f s := by
      simpa only [StructOf] using h
    simp only [StructOf]
    exact ⟨h'.1, fun v hv => valOf_mono hpq ty v (h'.2.1 v hv), structOf_mono hpq f s h'.2.2⟩
end

/-- A Session Establishment Response. -/
def exStrMsg : PMsg := { remote := .inet 0xc0000201 8805, h := exHdr, ies := exIes, causeAt := some 1 }

set_option maxRecDepth 100000 in
/-- Its text, from the specification; the example shows that it meets the assumptions of `C68_message`. -/
example : ∃ f, message exStrMsg.h.type = some f ∧ StructTyped f exStrMsg.ies ∧
    msgText exLib f exStrMsg = lit "PFCPv1 SESSION_EST_RESP hdr={seq=66051 prio=9 SEID=0x4d} ies={ 'Node ID'=v4:192.0.2.1" ++
      lit " 'Cause'=Request accepted (success) 'F-SEID'=0x5,v6:?" ++
      lit " 'Created PDR'={ { 'PDR ID'=1 'F-TEID'=TEID-0x9,v4:192.0.2.1 }, { 'PDR ID'=2 } } }" := by
  obtain ⟨f, hf, hg, -⟩ := exIes_good
  refine ⟨f, hf, structTyped_of f _ (structOf_mono (fun v hv => Or.inl hv) f _ hg), ?_⟩
  have e : f = layout
    [ (Iei.nodeId, once, .ie .nodeId), (Iei.cause, once, .ie .cause), (Iei.offendingIe, maybe, .ie .offendingIe),
      (Iei.fSeid, maybe, .ie .fSeid), (Iei.createdPdr, times 0 32, Group.createdPdr) ] :=
    (Option.some.inj (hf.symm.trans rfl))
  subst e
  rfl

set_option maxRecDepth 100000 in
/-- A buffer of eight octets gets the first seven characters. -/
example : msgToStr exLib exStrMsg (some (List.replicate 8 1)) = .ok (some (lit "PFCPv1 " ++ [0]), .ok 220) := by rfl

example : exStrMsg.cause = (some 1 : Option Nat).map (fun c => [.leaf (.cause c)]) := rfl

/-- A response whose members nobody has set yet. -/
example : ({ exStrMsg with ies := exStrMsg.ies.map fun _ => [] } : PMsg).cause = some [] ∧
    valueStr causeStrs 0 = lit "0" := ⟨rfl, by decide +kernel⟩

/-! ### C69: strings on the heap -/

/-- What printing gets on the heap is a string that holds the text, whatever the size of the first buffer, and whatever
was in the memory. -/
theorem C69_message (fresh : Nat → List UInt8) (hfresh : ∀ n, (fresh n).length = n) (size : Nat) (lib : LibText) (m : PMsg)
    (f : Fields) (hf : message m.h.type = some f) (h : StructTyped f m.ies) :
    ∃ mem, nameC fresh size (msgToStr lib m) = .ok mem ∧ HoldsString mem (msgText lib f m) :=
  nameC_holds (C68_message lib m f hf h) fresh hfresh size

theorem C69_log_info (fresh : Nat → List UInt8) (hfresh : ∀ n, (fresh n).length = n) (size : Nat) (lib : LibText) (m : PMsg)
    (cause : Option Nat) (h : m.cause = cause.map fun c => [.leaf (.cause c)]) :
    ∃ mem, nameC fresh size (msgLogInfo lib (some m)) = .ok mem ∧
      HoldsString mem (logText lib (if m.ctx.sessionFi.isSome then m.ctx.sessionFi else m.ctx.peerFi) cause m) :=
  nameC_holds (C68_log_info lib m cause h).1 fresh hfresh size

theorem C69_ie (fresh : Nat → List UInt8) (hfresh : ∀ n, (fresh n).length = n) (size : Nat) (lib : LibText) (v : IeVal)
    (h : ArraySizes v) : ∃ mem, nameC fresh size (ieToStr lib v) = .ok mem ∧ HoldsString mem (ieText lib v) :=
  nameC_holds (C68_ie lib v h) fresh hfresh size

theorem C69_tag (fresh : Nat → List UInt8) (hfresh : ∀ n, (fresh n).length = n) (size : Nat) (names : Option ValueStrs)
    (ti : TagInst) : ∃ mem, nameC fresh size (tagInstToStr names ti) = .ok mem ∧ HoldsString mem (tagText names ti) :=
  nameC_holds (C68_tag names ti).1 fresh hfresh size

/-- Structs with at least one IE. -/
theorem C69_struct_partial (fresh : Nat → List UInt8) (hfresh : ∀ n, (fresh n).length = n) (size : Nat) (lib : LibText)
    (f : Fields) (s : Struct IeVal) (h : StructTyped f s) (hne : ∃ vs ∈ s, vs ≠ []) :
    ∃ mem, nameC fresh size (gtlvsToStr ieiStrs s (some (f.strCodings lib))) = .ok mem ∧
      HoldsString mem (structText lib f s) :=
  nameC_holds (C68_struct_partial lib f s h hne) fresh hfresh size

/-- C69 fails for a struct without any IE: the caller gets the memory as it came from the allocator. -/
theorem C69_counterexample (fresh : Nat → List UInt8) (lib : LibText) (size : Nat) (hs : 0 < size) (f : Fields)
    (s : Struct IeVal) (h : StructTyped f s) (he : ∀ vs ∈ s, vs = []) :
    nameC fresh size (gtlvsToStr ieiStrs s (some (f.strCodings lib))) = .ok (fresh size) := by
  unfold nameC
  rw [(C68_counterexample_no_ie lib f s h he).1, bind_ok_str]
  simp [hs]

/-- For example, memory full of ones is not a string. -/
example (lib : LibText) : nameC (fun n => List.replicate n 1) 256 (gtlvsToStr ieiStrs [] (some (Fields.nil.strCodings lib))) =
    .ok (List.replicate 256 1) ∧ ¬ ∃ t, HoldsString (List.replicate 256 1) t := by
  refine ⟨C69_counterexample _ lib 256 (by decide) .nil [] (by simp [StructTyped]) (by simp), ?_⟩
  rintro ⟨t, junk, e⟩
  have : (0 : UInt8) ∈ List.replicate 256 (1 : UInt8) := by rw [e]; simp
  rw [List.mem_replicate] at this
  exact absurd this.2 (by decide)

/-! ### C70: names -/

/-- The number that digits stand for. -/
def number (b : Nat) (t : Text) : Nat := t.foldl (fun a c => a * b + if c.toNat < 58 then c.toNat - 48 else c.toNat - 87) 0

theorem number_append (b : Nat) (t : Text) (c : UInt8) :
    number b (t ++ [c]) = number b t * b + if c.toNat < 58 then c.toNat - 48 else c.toNat - 87 := by
  simp [number]

theorem digit_value : ∀ d : Fin 16, (if (UInt8.ofNat (Nat.digitChar d).toNat).toNat < 58
    then (UInt8.ofNat (Nat.digitChar d).toNat).toNat - 48 else (UInt8.ofNat (Nat.digitChar d).toNat).toNat - 87) = d := by
  decide

theorem number_digits (b : Nat) (hb : 1 < b) (hb16 : b ≤ 16) (n : Nat) :
    number b ((Nat.toDigits b n).map fun c => UInt8.ofNat c.toNat) = n := by
  induction n using Nat.strongRecOn with
  | _ n ih =>
    by_cases h : n < b
    · rw [Nat.toDigits_of_lt_base h]
      have := digit_value ⟨n, by omega⟩
      simpa [number] using this
    · rw [Nat.toDigits_of_base_le hb (by omega), List.map_append, List.map_cons, List.map_nil, number_append,
        ih (n / b) (Nat.div_lt_self (by omega) hb)]
      have hm : n % b < b := Nat.mod_lt _ (by omega)
      have := digit_value ⟨n % b, by omega⟩
      simp only at this
      rw [this, Nat.mul_comm]
      exact Nat.div_add_mod n b

theorem hex_inj {m n : Nat} (h : hex m = hex n) : m = n := by
  have h1 := number_digits 16 (by decide) (by decide) m
  have h2 := number_digits 16 (by decide) (by decide) n
  unfold hex at h
  rw [h, h2] at h1
  exact h1.symm

theorem dec_inj {m n : Nat} (h : dec m = dec n) : m = n := by
  have h1 := number_digits 10 (by decide) (by decide) m
  have h2 := number_digits 10 (by decide) (by decide) n
  unfold dec at h
  rw [h, h2] at h1
  exact h1.symm

/-- The octets as a number. -/
def code (t : Text) : Nat := t.foldl (fun a c => a * 256 + c.toNat) 0

/-- Whether numbers are distinct, and not in the set `seen`. -/
def distinct : List Nat → Nat → Bool
  | [], _ => true
  | x :: l, seen => !seen.testBit x && distinct l (seen ||| 1 <<< x)

theorem distinct_nodup : ∀ (l : List Nat) (seen : Nat), distinct l seen = true →
    l.Nodup ∧ ∀ x ∈ l, seen.testBit x = false
  | [], _, _ => by simp
  | x :: l, seen, h => by
    simp only [distinct, Bool.and_eq_true, Bool.not_eq_true'] at h
    obtain ⟨h1, h2⟩ := distinct_nodup l _ h.2
    have key : ∀ y ∈ l, x ≠ y ∧ seen.testBit y = false := by
      intro y hy
      have := h2 y hy
      rw [Nat.testBit_or, Nat.one_shiftLeft, Nat.testBit_two_pow] at this
      simp at this
      exact ⟨this.2, this.1⟩
    refine ⟨List.nodup_cons.2 ⟨fun hx => (key x hx).1 rfl, h1⟩, fun y hy => ?_⟩
    rcases List.mem_cons.1 hy with rfl | hy
    · exact h.1
    · exact (key y hy).2

/-- No value twice, no name twice, and none that looks like an unknown number. -/
def goodNames (vs : ValueStrs) : Bool :=
  distinct (vs.map fun e => e.1) 0 && distinct (vs.map fun e => code (lit e.2) % 4929) 0 &&
    vs.all fun e => !(lit "unknown 0x").isPrefixOf (lit e.2)

theorem nodup_map {α β : Type} {f : α → β} : ∀ {l : List α}, (l.map f).Nodup → ∀ {a b : α}, a ∈ l → b ∈ l → f a = f b → a = b
  | [], _, _, _, ha, _, _ => by cases ha
  | x :: l, h, a, b, ha, hb, e => by
    rw [List.map_cons, List.nodup_cons] at h
    rcases List.mem_cons.1 ha with rfl | ha1 <;> rcases List.mem_cons.1 hb with h2 | hb1
    · exact h2.symm
    · exact absurd (List.mem_map.2 ⟨b, hb1, e.symm⟩) h.1
    · subst h2; exact absurd (List.mem_map.2 ⟨a, ha1, e⟩) h.1
    · exact nodup_map h.2 ha1 hb1 e

theorem valueStr_inj {vs : ValueStrs} (h : goodNames vs = true) {a b : Nat} (e : valueStr vs a = valueStr vs b) : a = b := by
  simp only [goodNames, Bool.and_eq_true, List.all_eq_true, Bool.not_eq_true'] at h
  obtain ⟨⟨-, hn⟩, hp⟩ := h
  unfold valueStr at e
  have pre : ∀ {x : Nat × String} (n : Nat), x ∈ vs → lit x.2 ≠ lit "unknown 0x" ++ hex n := by
    intro x n hx hc
    have := hp x hx
    rw [hc, List.isPrefixOf_iff_prefix.2 (List.prefix_append _ _)] at this
    cases this
  cases ha : vs.find? fun e => decide (e.1 = a) with
  | none =>
    cases hb : vs.find? fun e => decide (e.1 = b) with
    | none =>
      rw [ha, hb] at e
      exact hex_inj (List.append_cancel_left e)
    | some y =>
      rw [ha, hb] at e
      exact absurd e.symm (pre a (List.mem_of_find?_eq_some hb))
  | some x =>
    have hx := List.find?_some ha
    cases hb : vs.find? fun e => decide (e.1 = b) with
    | none =>
      rw [ha, hb] at e
      exact absurd e (pre b (List.mem_of_find?_eq_some ha))
    | some y =>
      have hy := List.find?_some hb
      rw [ha, hb] at e
      have := nodup_map (distinct_nodup _ _ hn).1 (List.mem_of_find?_eq_some ha) (List.mem_of_find?_eq_some hb)
        (congrArg (fun t => code t % 4929) e)
      subst this
      simp only [decide_eq_true_eq] at hx hy
      omega

theorem valueStr_known {vs : ValueStrs} (h : goodNames vs = true) {e : Nat × String} (he : e ∈ vs) :
    valueStr vs e.1 = lit e.2 := by
  simp only [goodNames, Bool.and_eq_true] at h
  unfold valueStr
  cases hf : vs.find? fun x => decide (x.1 = e.1) with
  | none =>
    rw [List.find?_eq_none] at hf
    simpa using hf e he
  | some x =>
    have hx := List.find?_some hf
    have := nodup_map (distinct_nodup _ _ h.1.1).1 (List.mem_of_find?_eq_some hf) he (by simpa using hx)
    rw [this]

/-- The tables of names for numbers (pfcp_strs.c). -/
def numberNames : List ValueStrs :=
  [messageTypeStrs, ieiStrs, causeStrs, ohrStrs, sourceIfaceStrs, destIfaceStrs, ifaceTypeStrs]
/-- The tables of names for bits (pfcp_strs.c). -/
def bitNames : List ValueStrs := [upFeatureStrs, cpFeatureStrs, applyActionStrs, ohcStrs]

theorem tables_good : ∀ vs ∈ numberNames ++ bitNames, goodNames vs = true := by decide +kernel

/-- C70: different numbers - message types, IE types, causes, .. - print different names, known or unknown. -/
theorem C70_names (vs : ValueStrs) (h : vs ∈ numberNames) (a b : Nat) (e : valueStr vs a = valueStr vs b) : a = b :=
  valueStr_inj (tables_good vs (List.mem_append_left _ h)) e

/-- C70: known numbers print their names, all others the number in hexadecimal. -/
theorem C70_known (vs : ValueStrs) (h : vs ∈ numberNames) :
    (∀ e ∈ vs, valueStr vs e.1 = lit e.2) ∧ ∀ n, (∀ e ∈ vs, e.1 ≠ n) → valueStr vs n = lit "unknown 0x" ++ hex n := by
  refine ⟨fun e he => valueStr_known (tables_good vs (List.mem_append_left _ h)) he, fun n hn => ?_⟩
  have : vs.find? (fun e => decide (e.1 = n)) = none := by
    rw [List.find?_eq_none]
    intro e he
    simpa using hn e he
  unfold valueStr
  rw [this]

/-! Bit fields -/

theorem split_at {c : UInt8} : ∀ {t u r r' : Text}, c ∉ t → c ∉ u → (r = [] ∨ r.head? = some c) → (r' = [] ∨ r'.head? = some c) →
    t ++ r = u ++ r' → t = u ∧ r = r'
  | [], [], r, r', _, _, _, _, e => ⟨rfl, e⟩
  | [], y :: u, r, r', _, hu, hr, _, e => by
    rcases hr with rfl | hr
    · simp at e
    · simp only [List.nil_append] at e
      rw [e] at hr
      simp at hr
      subst hr
      simp at hu
  | x :: t, [], r, r', ht, _, _, hr', e => by
    rcases hr' with rfl | hr
    · simp at e
    · simp only [List.nil_append] at e
      rw [← e] at hr
      simp at hr
      subst hr
      simp at ht
  | x :: t, y :: u, r, r', ht, hu, hr, hr', e => by
    simp only [List.cons_append, List.cons.injEq] at e
    obtain ⟨h1, h2⟩ := split_at (fun h => ht (List.mem_cons_of_mem _ h)) (fun h => hu (List.mem_cons_of_mem _ h)) hr hr' e.2
    exact ⟨by rw [e.1, h1], h2⟩

theorem plus_flatten_head (ts : List Text) : (ts.map fun u => lit "+" ++ u).flatten = [] ∨
    ((ts.map fun u => lit "+" ++ u).flatten).head? = some 43 := by
  cases ts with
  | nil => exact Or.inl rfl
  | cons t ts =>
    right
    have : lit "+" = [43] := by decide
    simp [this]

theorem plus_flatten_inj : ∀ {ts us : List Text}, (∀ t ∈ ts, (43 : UInt8) ∉ t) → (∀ u ∈ us, (43 : UInt8) ∉ u) →
    (ts.map fun u => lit "+" ++ u).flatten = (us.map fun u => lit "+" ++ u).flatten → ts = us
  | [], [], _, _, _ => rfl
  | [], u :: us, _, _, e => by
    have : lit "+" = [43] := by decide
    simp [this] at e
  | t :: ts, [], _, _, e => by
    have : lit "+" = [43] := by decide
    simp [this] at e
  | t :: ts, u :: us, ht, hu, e => by
    simp only [List.map_cons, List.flatten_cons, List.append_assoc, List.append_cancel_left_eq] at e
    obtain ⟨h1, h2⟩ := split_at (ht t (by simp)) (hu u (by simp)) (plus_flatten_head ts) (plus_flatten_head us) e
    rw [h1, plus_flatten_inj (fun x hx => ht x (List.mem_cons_of_mem _ hx)) (fun x hx => hu x (List.mem_cons_of_mem _ hx)) h2]

/-- No name with "+", none is "-". -/
def goodBitNames (vs : ValueStrs) : Bool := vs.all fun e => !(lit e.2).contains 43 && lit e.2 != lit "-"

theorem bit_tables_good : ∀ vs ∈ bitNames, goodBitNames vs = true := by decide +kernel

theorem filter_names_inj : ∀ {vs : ValueStrs} {p q : Nat → Bool}, (vs.map fun e => code (lit e.2) % 4929).Nodup →
    (vs.filter fun e => p e.1).map (fun e => lit e.2) = (vs.filter fun e => q e.1).map (fun e => lit e.2) →
    ∀ e ∈ vs, p e.1 = q e.1 := by
  intro vs p q hn e x hx
  have key : ∀ {p q : Nat → Bool}, (vs.filter fun e => p e.1).map (fun e => lit e.2) =
      (vs.filter fun e => q e.1).map (fun e => lit e.2) → p x.1 = true → q x.1 = true := by
    intro p q e hp
    have hm : lit x.2 ∈ (vs.filter fun e => p e.1).map (fun e => lit e.2) :=
      List.mem_map.2 ⟨x, List.mem_filter.2 ⟨hx, hp⟩, rfl⟩
    rw [e] at hm
    obtain ⟨y, hy, hxy⟩ := List.mem_map.1 hm
    obtain ⟨hy1, hy2⟩ := List.mem_filter.1 hy
    have := nodup_map hn hy1 hx (congrArg (fun t => code t % 4929) hxy)
    rwa [this] at hy2
  cases hp : p x.1 <;> cases hq : q x.1
  · rfl
  · rw [key e.symm hq] at hp; cases hp
  · rw [key e hp] at hq; cases hq
  · rfl

/-- C70: the text of a bit field tells for every known bit whether it is set. -/
theorem C70_bits (vs : ValueStrs) (h : vs ∈ bitNames) (bits bits' : List UInt8) (e : bitsText bits vs = bitsText bits' vs) :
    ∀ x ∈ vs, bitSet bits x.1 = bitSet bits' x.1 := by
  have hg := tables_good vs (List.mem_append_right _ h)
  simp only [goodNames, Bool.and_eq_true] at hg
  have hn := (distinct_nodup _ _ hg.1.2).1
  have hb := bit_tables_good vs h
  simp only [goodBitNames, List.all_eq_true, Bool.and_eq_true, Bool.not_eq_true', bne_iff_ne] at hb
  have hplus : ∀ p : Nat × String → Bool, ∀ t ∈ (vs.filter p).map (fun e => lit e.2), (43 : UInt8) ∉ t := by
    intro p t ht hc
    obtain ⟨y, hy, rfl⟩ := List.mem_map.1 ht
    have := (hb y (List.mem_filter.1 hy).1).1
    simp at this
    exact this hc
  have hdash : ∀ p : Nat × String → Bool, ∀ y ys, vs.filter p = y :: ys → joined "+" ((y :: ys).map fun e => lit e.2) ≠ lit "-" := by
    intro p y ys hf hj
    have hy := (hb y (List.mem_filter.1 (show y ∈ vs.filter p by rw [hf]; simp)).1).2
    rw [List.map_cons, joined, intercalate_cons] at hj
    have hm := hplus p (lit y.2) (by rw [hf]; simp)
    have := split_at hm (u := lit "-") (by decide) (plus_flatten_head _) (Or.inl rfl) (hj.trans (List.append_nil _).symm)
    exact hy this.1
  refine filter_names_inj hn ?_
  unfold bitsText at e
  cases h1 : vs.filter fun e => bitSet bits e.1 with
  | nil =>
    cases h2 : vs.filter fun e => bitSet bits' e.1 with
    | nil => rfl
    | cons z zs =>
      simp only [h1, h2] at e
      exact absurd e.symm (hdash _ _ _ h2)
  | cons y ys =>
    cases h2 : vs.filter fun e => bitSet bits' e.1 with
    | nil =>
      simp only [h1, h2] at e
      exact absurd e (hdash _ _ _ h1)
    | cons z zs =>
      simp only [h1, h2, List.map_cons, joined, intercalate_cons] at e
      have p1 := hplus fun e => bitSet bits e.1
      have p2 := hplus fun e => bitSet bits' e.1
      rw [h1] at p1
      rw [h2] at p2
      simp only [List.map_cons, List.mem_cons, forall_eq_or_imp] at p1 p2
      obtain ⟨a, b⟩ := split_at p1.1 p2.1 (plus_flatten_head _) (plus_flatten_head _) e
      simp only [List.map_cons]
      rw [a, plus_flatten_inj p1.2 p2.2 b]

/-- For example, two values of Apply Action. -/
example : bitsText [0x02, 0] applyActionStrs = lit "FORW" ∧ bitsText [0x05, 0] applyActionStrs = lit "DROP+BUFF" ∧
    bitsText [0, 0] applyActionStrs = lit "-" := by decide

example : valueStr causeStrs 1 = lit "Request accepted (success)" ∧ valueStr causeStrs 200 = lit "unknown 0xc8" := by decide

/-! ### C71: flags of UE IP Address -/

/-- What an address text starts with. -/
theorem ipText_start (lib : LibText) (a : IpAddrs) :
    ∃ r, ipText lib a = lit "empty:" ++ r ∨ ipText lib a = lit "v4:" ++ r ∨ ipText lib a = lit "v6:" ++ r := by
  unfold ipText
  cases a.v4Present <;> cases a.v6Present
  · exact ⟨lit "-addr", Or.inl (show lit "empty:-addr" = lit "empty:" ++ lit "-addr" by decide)⟩
  · exact ⟨_, Or.inr (Or.inr rfl)⟩
  · exact ⟨_, Or.inr (Or.inl rfl)⟩
  · exact ⟨_, Or.inr (Or.inl (by simp only [List.append_assoc]; rfl))⟩

/-- The characters of the flags of a UE IP address. -/
def flagChars (a4 a6 ad : Bool) : Text :=
  (if a4 then [99, 104, 118, 52] else []) ++ (if a6 then [44, 99, 104, 118, 52] else []) ++
    (if ad then [44, 100, 115, 116] else []) ++ (if a4 || a6 || ad then [44] else [])

theorem ueIp_flagChars (lib : LibText) (u : UeIp) : ∃ c r, c ≠ 44 ∧ c ≠ 99 ∧ c ≠ 100 ∧
    ieText lib (.ueIp u) = flagChars u.chv4 u.chv6 u.isDest ++ c :: r := by
  have l1 : lit "chv4" = [99, 104, 118, 52] := by decide
  have l2 : lit "dst" = [100, 115, 116] := by decide
  have l3 : lit "," = [44] := by decide
  have l4 : lit "empty:" = 101 :: [109, 112, 116, 121, 58] := by decide
  have l5 : lit "v4:" = 118 :: [52, 58] := by decide
  have l6 : lit "v6:" = 118 :: [54, 58] := by decide
  have hc : ∃ c r, c ≠ 44 ∧ c ≠ 99 ∧ c ≠ 100 ∧ ipText lib u.ip = c :: r := by
    obtain ⟨r, hr | hr | hr⟩ := ipText_start lib u.ip
    · exact ⟨101, [109, 112, 116, 121, 58] ++ r, by decide, by decide, by decide, by rw [hr, l4]; rfl⟩
    · exact ⟨118, [52, 58] ++ r, by decide, by decide, by decide, by rw [hr, l5]; rfl⟩
    · exact ⟨118, [54, 58] ++ r, by decide, by decide, by decide, by rw [hr, l6]; rfl⟩
  obtain ⟨c, r, h1, h2, h3, e⟩ := hc
  refine ⟨c, r ++ (textIf u.delegPresent (lit ",ipv6-prefix-deleg:" ++ hex u.deleg) ++
      textIf u.plenPresent (lit ",ipv6-prefix-len:" ++ dec u.plen)), h1, h2, h3, ?_⟩
  simp only [ieTextSep, e, l1, l2, l3, textIf, flagChars, List.append_assoc, List.cons_append, List.nil_append]

/-- C71: the text tells which of the flags are set.  (CHV6 is printed as "chv4", but with a comma in front.) -/
theorem C71_flags (lib : LibText) (u u' : UeIp) (e : ieText lib (.ueIp u) = ieText lib (.ueIp u')) :
    u.chv4 = u'.chv4 ∧ u.chv6 = u'.chv6 ∧ u.isDest = u'.isDest := by
  obtain ⟨c, r, h1, h2, h3, e1⟩ := ueIp_flagChars lib u
  obtain ⟨d, s, k1, k2, k3, e2⟩ := ueIp_flagChars lib u'
  rw [e1, e2] at e
  generalize u.chv4 = a4, u.chv6 = a6, u.isDest = ad, u'.chv4 = b4, u'.chv6 = b6, u'.isDest = bd at e ⊢
  have h1' := h1.symm
  have h2' := h2.symm
  have h3' := h3.symm
  have k1' := k1.symm
  have k2' := k2.symm
  have k3' := k3.symm
  cases a4 <;> cases a6 <;> cases ad <;> cases b4 <;> cases b6 <;> cases bd <;>
    simp_all [flagChars]

/-- What is printed is this text. -/
theorem C71_printed (lib : LibText) (u : UeIp) : PrintsLikeSnprintf (ueIpToStr lib u) (ieText lib (.ueIp u)) :=
  (ueIpToStr_prints false lib u).like

/-- C71 in terms of what is printed: if two values print the same to buffers that are large enough, they have the same flags. -/
theorem C71_same_output (lib : LibText) (u u' : UeIp) (w w' mem : List UInt8) (n : Nat)
    (hw : (ieText lib (.ueIp u)).length < w.length) (hw' : (ieText lib (.ueIp u')).length < w'.length)
    (h : ueIpToStr lib u (some w) = .ok (some mem, .ok n)) (h' : ueIpToStr lib u' (some w') = .ok (some mem, .ok n)) :
    u.chv4 = u'.chv4 ∧ u.chv6 = u'.chv6 ∧ u.isDest = u'.isDest := by
  refine C71_flags lib u u' ?_
  obtain ⟨j, e⟩ := like_wr (C71_printed lib u) w hw
  obtain ⟨j', e'⟩ := like_wr (C71_printed lib u') w' hw'
  rw [e] at h
  rw [e'] at h'
  simp only [Res.ok.injEq, Prod.mk.injEq, Option.some.injEq, Except.ok.injEq] at h h'
  exact (List.append_inj (h.1.trans h'.1.symm) (h.2.trans h'.2.symm)).1

example : ieText exLib (.ueIp { chv4 := true, isDest := true }) = lit "chv4,dst,empty:-addr" := by decide
/-- Values that differ in one flag. -/
example : ieText exLib (.ueIp { chv4 := true }) = lit "chv4,empty:-addr" ∧ ieText exLib (.ueIp { chv6 := true }) = lit ",chv4,empty:-addr" ∧
    ieText exLib (.ueIp { isDest := true }) = lit ",dst,empty:-addr" := by decide

end Verif.Props
