/-
Properties C100 to C102: errors in decoding and encoding are reported through err_cb, truthfully.
-/
import Verif.ReportBlame4
import Verif.ReportOrd
import Verif.ReportEnc
import Verif.PropsOrd
import Verif.PropsMeaning

namespace Verif.Spec
open Verif

/-- What is wrong with the IEs of a message: as `Blames`, for the layout of its type; without a layout, nothing is
reported. -/
def BodyBlames (m : List UInt8) (rc : Errno) (l : List Report) : Prop :=
  (∃ f, message (numAt m 1 1) = some f ∧ Blames f (m.drop (announcedHeader m)) rc l) ∨
  (message (numAt m 1 1) = none ∧ rc = .ENOTSUP ∧ l = [])

end Verif.Spec

namespace Verif.Props
open Verif Spec

theorem message_table {t : Nat} {f : Fields} (h : message t = some f) : Table f :=
  ⟨(message_wf h).1, (message_wf h).2, msgFields_room ((msgFields_eq _).trans h)⟩

/-- C100: decoding the IEs of a message returns what it would without reports; a message with a meaning is decoded without any
report; it fails with an error code and reports exactly if these tell what is wrong. -/
theorem C100_decoding (m rest : List UInt8) (hm : Framed m) (hz : 0 ∈ rest) :
    ∃ d, decodeHeader (some (m ++ rest)) m.length = .ok d ∧ (decodeTlvR d).1 = decodeTlv d ∧
      (∀ s l, decodeTlvR d = (.ok s, l) ↔ BodyMeans m s ∧ l = []) ∧
      (∀ rc l, decodeTlvR d = (.err rc, l) ↔ BodyBlames m rc l) ∧
      ((∃ s, BodyMeans m s) ∨ ∃ rc l, BodyBlames m rc l) := by
  obtain ⟨d, h1, h2, h3, h4⟩ := C79_decoding m rest hm hz
  have hd := decodeHeader_framed hm [] rest
  simp only [List.append_nil, List.nil_append] at hd
  have hw := headerOf_window (r := rest) hm
  have ht : (headerOf m rest).h.type = numAt m 1 1 := rd_numAt m 1 (by have := hm.1; omega)
  rw [hd] at h1
  cases h1
  have hfst := decodeTlvR_fst (headerOf m rest)
  have eq : decodeTlvR (headerOf m rest) = match message (numAt m 1 1) with
      | none => (.err .ENOTSUP, [])
      | some f => decodeUnorderedR f.rcodings
          { cfg := t16l16v, mem := m.drop (announcedHeader m) ++ rest, srcLen := (m.drop (announcedHeader m)).length } := by
    unfold decodeTlvR
    rw [hw.1, hw.2.1, ht, msgFields_eq]
    cases message (numAt m 1 1) <;> rfl
  have errs : ∀ rc l, decodeTlvR (headerOf m rest) = (.err rc, l) ↔ BodyBlames m rc l := by
    intro rc l
    rw [eq]
    unfold BodyBlames
    cases hf : message (numAt m 1 1) with
    | none =>
      simp only [Prod.mk.injEq, Res.err.injEq]
      constructor
      · rintro ⟨rfl, rfl⟩; exact .inr ⟨trivial, rfl, rfl⟩
      · rintro (⟨f, h, _⟩ | ⟨_, rfl, rfl⟩)
        · cases h
        · exact ⟨rfl, rfl⟩
    | some f =>
      simp only
      rw [Fields.blames (message_table hf) _ rest hz]
      constructor
      · intro h; exact .inl ⟨f, rfl, h⟩
      · rintro (⟨f', h, h'⟩ | ⟨h, _⟩)
        · cases h; exact h'
        · cases h
  refine ⟨_, hd, hfst, ?_, errs, ?_⟩
  · intro s l
    rw [← h3 s, ← hfst]
    constructor
    · intro h
      refine ⟨by rw [h], ?_⟩
      rw [eq] at h
      cases hf : message (numAt m 1 1) with
      | none => rw [hf] at h; cases h
      | some f =>
        rw [hf] at h
        simp only at h
        have := decodeUnorderedR_silent (Fields.silent f) _ s (by rw [h])
        rw [h] at this
        exact this
    · rintro ⟨h, rfl⟩
      refine Prod.ext h ?_
      rw [eq] at h ⊢
      cases hf : message (numAt m 1 1) with
      | none => rfl
      | some f => rw [hf] at h; exact decodeUnorderedR_silent (Fields.silent f) _ s h
  · by_cases hs : ∃ s, BodyMeans m s
    · exact .inl hs
    · obtain ⟨e, he⟩ := h4 hs
      refine .inr ⟨e, _, (errs e _).1 (Prod.ext (hfst.trans he) rfl)⟩

/-- C100: of a message of a known type there is at least one report if its IEs have no meaning; each report has the error code
that is returned; the last is about an IE of the message itself, those before about IEs within it, one level each. -/
theorem C100_reported {f : Fields} {o : List UInt8} {rc : Errno} {l : List Report} (h : Blames f o rc l) :
    l ≠ [] ∧ (∀ r ∈ l, r.rc = rc) ∧ (∀ r ∈ l.tail, r.text = .inside) := by
  induction h with
  | @inside f ies iei kind g v o rc l _ _ _ _ _ ih =>
    refine ⟨by simp, ?_, ?_⟩
    · intro r hr
      rcases List.mem_append.1 hr with hr | hr
      · exact ih.2.1 r hr
      · rw [List.mem_singleton.1 hr]
    · intro r hr
      rw [List.tail_append_of_ne_nil ih.1] at hr
      rcases List.mem_append.1 hr with hr | hr
      · exact ih.2.2 r hr
      · rw [List.mem_singleton.1 hr]
  | _ => simp

/-- C100: what is wrong is told in one way only, and only of octets without a meaning. -/
theorem C100_unambiguous (m : List UInt8) (hm : Framed m) {rc rc' : Errno} {l l' : List Report} (h : BodyBlames m rc l) :
    (BodyBlames m rc' l' → rc = rc' ∧ l = l') ∧ ¬ ∃ s, BodyMeans m s := by
  obtain ⟨d, _, _, h1, h2, _⟩ := C100_decoding m [0] hm (by simp)
  have a := (h2 rc l).2 h
  refine ⟨fun h' => ?_, ?_⟩
  · have b := (h2 rc' l').2 h'
    rw [a] at b
    simp only [Prod.mk.injEq, Res.err.injEq] at b
    exact b
  · rintro ⟨s, hs⟩
    have b := (h1 s []).2 ⟨hs, rfl⟩
    rw [a] at b
    cases b

/-! Examples: exNoCause (PropsMeaning) has no Cause IE. -/
example : BodyBlames exNoCause .EINVAL [{ ti := { tag := 19 }, rc := .EINVAL, text := .missing }] := by
  obtain ⟨d, h0, _, _, h2, _⟩ := C100_decoding exNoCause [0] exNoCause_framed (by simp)
  have hd := decodeHeader_framed exNoCause_framed [] [0]
  simp only [List.append_nil, List.nil_append] at hd
  rw [hd] at h0
  cases h0
  exact (h2 _ _).1 rfl

/-- A Session Modification Response in which the PDR ID in a Created PDR has one octet only. -/
def exShortPdr : List UInt8 := [0x20, 53, 0, 18, 0, 0, 9, 0, 0, 19, 0, 1, 1, 0, 8, 0, 5, 0, 56, 0, 1, 7]

theorem exShortPdr_framed : Framed exShortPdr := by unfold Framed; decide +kernel

-- Two reports: the PDR ID has L=1, V=[ 07 ]; it is in a Created PDR.
example : BodyBlames exShortPdr .EINVAL [{ ti := { tag := 56 }, rc := .EINVAL, text := .value 1 [7] false },
    { ti := { tag := 8 }, rc := .EINVAL, text := .inside }] := by
  obtain ⟨d, h0, _, _, h2, _⟩ := C100_decoding exShortPdr [0] exShortPdr_framed (by simp)
  have hd := decodeHeader_framed exShortPdr_framed [] [0]
  simp only [List.append_nil, List.nil_append] at hd
  rw [hd] at h0
  cases h0
  exact (h2 _ _).1 rfl

/-- A Heartbeat Request with a Recovery Time Stamp twice, and one with one octet behind it. -/
def exTwice : List UInt8 := [0x20, 1, 0, 20, 0, 0, 9, 0, 0, 96, 0, 4, 1, 2, 3, 4, 0, 96, 0, 4, 1, 2, 3, 4]
def exLeftover : List UInt8 := [0x20, 1, 0, 13, 0, 0, 9, 0, 0, 96, 0, 4, 1, 2, 3, 4, 0]

example : BodyBlames exTwice .ENOTSUP [{ ti := { tag := 96 }, rc := .ENOTSUP, text := .surplus 1 }] ∧
    BodyBlames exLeftover .EBADMSG [{ ti := { tag := 96 }, rc := .EBADMSG, text := .broken }] := by
  constructor
  · have hf : Framed exTwice := by unfold Framed; decide +kernel
    obtain ⟨d, h0, _, _, h2, _⟩ := C100_decoding exTwice [0] hf (by simp)
    have hd := decodeHeader_framed hf [] [0]
    simp only [List.append_nil, List.nil_append] at hd
    rw [hd] at h0
    cases h0
    exact (h2 _ _).1 rfl
  · have hf : Framed exLeftover := by unfold Framed; decide +kernel
    obtain ⟨d, h0, _, _, h2, _⟩ := C100_decoding exLeftover [0] hf (by simp)
    have hd := decodeHeader_framed hf [] [0]
    simp only [List.append_nil, List.nil_append] at hd
    rw [hd] at h0
    cases h0
    exact (h2 _ _).1 rfl

/-! ## C101: libosmo-gtlv, any table -/

variable {A : Type}

theorem Width.tlMin (w : Width) : w.cfg.tlMin = w.tl := by cases w <;> rfl

theorem hdr_numAt (w : Width) {junk : List UInt8} {ti : TagInst} {n : Nat} (h : junk.take w.tl = Width.hdr w ti n)
    (hd : Width.dom w ti n) : numAt junk 0 (w.tl / 2) = ti.tag ∧ numAt junk (w.tl / 2) (w.tl / 2) = n := by
  cases w with
  | w16 => exact numAt_hdr h hd.2.1 hd.2.2
  | w8 =>
    have h1 : ti.tag < 256 := hd.2.1
    have h2 : n < 256 := hd.2.2
    match junk, h with
    | a :: b :: r, h =>
      simp only [Width.tl, Width.hdr, hdr8, storeBE, List.take_succ_cons, List.take_zero, List.nil_append,
        List.cons_append, List.cons.injEq, and_true] at h
      obtain ⟨rfl, rfl⟩ := h
      simp [Width.tl, numAt, loadBE]
      omega

theorem hdr_octets (w : Width) (ti : TagInst) (v : List UInt8) :
    Width.hdr w ti v.length ++ v = w.octets [(ti.tag, v)] := by
  cases w with
  | w16 =>
    have e : ∀ n : Nat, UInt8.ofNat (n % 256) = UInt8.ofNat n := fun n => UInt8.toNat_inj.1 (by simp)
    simp [Width.hdr, hdr16, Width.octets, octets16, ie16, storeBE, octet, e]
  | w8 => simp [Width.hdr, hdr8, Width.octets, octets8, ie8, storeBE, octet]

/-- C101: unordered decoding with any table, of any octets: it returns what it would without reports, reports nothing
if it succeeds, and if it fails, the last report has the error code that is returned. -/
theorem C101_unordered (g : Load) (table : List (RCoding A)) (hb : ∀ c ∈ table, Built c) :
    (gtlvsDecodeR g false (some table)).1 = gtlvsDecode g false (some (unreported table)) ∧
    (∀ s, (gtlvsDecodeR g false (some table)).1 = .ok s → (gtlvsDecodeR g false (some table)).2 = []) ∧
    (∀ rc, (gtlvsDecodeR g false (some table)).1 = .err rc →
      ∃ l r, (gtlvsDecodeR g false (some table)).2 = l ++ [r] ∧ r.rc = rc) :=
  ⟨gtlvsDecodeR_fst g false (some table), decodeUnorderedR_silent (fun c hc => (hb c hc).silent) g,
    (decodeUnorderedR_tells table g).told⟩

/-- C101 for ordered decoding: the same, and the last report has the tag of an entry of the table.
Missing from C101: one failure is not reported at all, that of a repeated IE which is directly followed by an IE with
the same tag that is not complete (`C101_counterexample`). -/
theorem C101_ordered_partial (w : Width) (table : List (RCoding A)) (hb : ∀ c ∈ table, Built c) (mem : List UInt8) (len : Nat)
    (hw : len ≤ mem.length) :
    (gtlvsDecodeR (fresh w.cfg mem len) true (some table)).1 =
      gtlvsDecode (fresh w.cfg mem len) true (some (unreported table)) ∧
    (∀ s, (gtlvsDecodeR (fresh w.cfg mem len) true (some table)).1 = .ok s →
      (gtlvsDecodeR (fresh w.cfg mem len) true (some table)).2 = []) ∧
    (∀ rc, (gtlvsDecodeR (fresh w.cfg mem len) true (some table)).1 = .err rc →
      (∃ l r, (gtlvsDecodeR (fresh w.cfg mem len) true (some table)).2 = l ++ [r] ∧ r.rc = rc ∧ ∃ c ∈ table, r.ti = c.c.ti) ∨
      ((gtlvsDecodeR (fresh w.cfg mem len) true (some table)).2 = [] ∧ rc = .EBADMSG ∧
        ∃ c ∈ table, (∃ max m, c.c.kind = .multi max m) ∧ HalfRepeated w c.c.ti (mem.take len))) := by
  have hs : ∀ c ∈ table, Silent c := fun c hc => (hb c hc).silent
  have hg := (orderedR_good (Width.lawful w) hs (o := mem.take len) (table.length + (fresh w.cfg mem len).srcLen + 2)).1
    table [] (fresh w.cfg mem len).start (fun _ h => h) ⟨rfl, hw, rfl, Nat.zero_le _⟩
  refine ⟨gtlvsDecodeR_fst _ true (some table), hg.ok, fun rc h => ?_⟩
  rcases hg.err rc h with h | ⟨h1, h2, c, hc, hk, pre, v, junk, n, e, h3, h4, h5, h6⟩
  · exact .inl h
  · rw [Width.tlMin] at h3 h4 h5
    obtain ⟨a, b⟩ := hdr_numAt w h5 h6
    refine .inr ⟨h1, h2, c, hc, hk, pre, v, junk, ?_, h3, a, ?_⟩
    · rw [e, hdr_octets]
    · rw [b]; exact h4

/-- C101 does not hold for ordered decoding: the second IE is cut short, -EBADMSG is returned, and nothing is reported; the
same octets in unordered decoding are reported. -/
theorem C101_counterexample :
    gtlvsDecodeR (fresh t8l8v [3, 1, 7, 3, 2, 8] 6) true (some [leafRCoding (raw 3 (.multi 2 1))]) = (.err .EBADMSG, []) ∧
    gtlvsDecodeR (fresh t8l8v [3, 1, 7, 3, 2, 8] 6) false (some [leafRCoding (raw 3 (.multi 2 1))]) =
      (.err .EBADMSG, [{ ti := { tag := 3 }, rc := .EBADMSG, text := .broken }]) := ⟨rfl, rfl⟩

/-- C101 does not hold without a table: -ENOTSUP is returned, and nothing is reported. -/
theorem C101_counterexample_null (g : Load) (ordered : Bool) :
    gtlvsDecodeR g ordered (none : Option (List (RCoding A))) = (.err .ENOTSUP, []) := rfl

-- A table with nested IEs: one is missing within, in ordered and in unordered decoding.
example : (∀ c ∈ [nestedRCoding { tag := 1 } .mand t8l8v true [leafRCoding (raw 3 .mand)]], Built c) ∧
    gtlvsDecodeR (fresh t8l8v [1, 2, 4, 0] 4) true (some [nestedRCoding { tag := 1 } .mand t8l8v true [leafRCoding (raw 3 .mand)]]) =
      (.err .ENOENT, [{ ti := { tag := 3 }, rc := .ENOENT, text := .missing }, { ti := { tag := 1 }, rc := .ENOENT, text := .inside }]) ∧
    gtlvsDecodeR (fresh t8l8v [1, 2, 4, 0] 4) false (some [nestedRCoding { tag := 1 } .mand t8l8v false [leafRCoding (raw 3 .mand)]]) =
      (.err .EINVAL, [{ ti := { tag := 3 }, rc := .EINVAL, text := .missing }, { ti := { tag := 1 }, rc := .EINVAL, text := .inside }]) := by
  refine ⟨?_, rfl, rfl⟩
  intro c hc
  rw [List.mem_singleton.1 hc]
  exact .nested _ _ _ _ _ fun c hc => by rw [List.mem_singleton.1 hc]; exact .leaf _

/-! ## C102: encoding -/

/-- C102: encoding the IEs of a message returns what it would without reports, reports nothing if it succeeds, and if it
fails, the reports tell what is not encoded; of a message type without a layout nothing is reported. -/
theorem C102_encoding (h : Hdr) (ies : Struct IeVal) (b : Msgb) :
    (encTlvR h ies b).1 = encTlv h ies b ∧
    (∀ b', (encTlvR h ies b).1 = .ok b' → (encTlvR h ies b).2 = []) ∧
    (∀ rc b', (encTlvR h ies b).1 = .err rc b' →
      (message h.type = none ∧ rc = .ENOTSUP ∧ (encTlvR h ies b).2 = []) ∨
      ∃ f, message h.type = some f ∧ Unencoded f ies rc (encTlvR h ies b).2) := by
  refine ⟨encTlvR_fst h ies b, ?_, ?_⟩
  · intro b' hr
    unfold encTlvR at hr ⊢
    cases hm : msgFields h.type with
    | none => rw [hm] at hr; cases hr
    | some f =>
      rw [hm] at hr
      simp only [Option.map_some, gtlvsEncodeR] at hr ⊢
      have := encodeTableR_reports t16l16v f.rcodings (Fields.encSilent f) ies {} b
      cases hx : (encodeTableR t16l16v f.rcodings ies {} b).1 with
      | ok pb => exact this _ hx
      | _ => rw [hx] at hr; cases hr
  · intro rc b' hr
    unfold encTlvR at hr ⊢
    rw [← msgFields_eq]
    cases hm : msgFields h.type with
    | none => rw [hm] at hr; cases hr; exact .inl ⟨rfl, rfl, rfl⟩
    | some f =>
      rw [hm] at hr
      simp only [Option.map_some, gtlvsEncodeR] at hr ⊢
      refine .inr ⟨f, rfl, Fields.unencoded f ies {} b rc ?_⟩
      cases hx : (encodeTableR t16l16v f.rcodings ies {} b).1 with
      | err e pb => rw [hx] at hr; cases hr; exact ⟨pb, rfl⟩
      | _ => rw [hx] at hr; cases hr

/-- C102: of a message of a known type there is at least one report if encoding fails; each report has the error code that is
returned; the last is about an IE of the message itself, those before about IEs within it. -/
theorem C102_reported {f : Fields} {s : Struct IeVal} {rc : Errno} {l : List Report} (h : Unencoded f s rc l) :
    l ≠ [] ∧ (∀ r ∈ l, r.rc = rc) ∧ (∀ r ∈ l.tail, r.text = .inside) := by
  induction h with
  | inside _ _ ih =>
    refine ⟨by simp, ?_, ?_⟩
    · intro r hr
      rcases List.mem_append.1 hr with hr | hr
      · exact ih.2.1 r hr
      · rw [List.mem_singleton.1 hr]
    · intro r hr
      rw [List.tail_append_of_ne_nil ih.1] at hr
      rcases List.mem_append.1 hr with hr | hr
      · exact ih.2.2 r hr
      · rw [List.mem_singleton.1 hr]
  | later _ ih => exact ih
  | _ => simp

/-- C102: the error code is -ENOTSUP if a repeated member has too many values, otherwise -EINVAL. -/
theorem C102_codes {f : Fields} {s : Struct IeVal} {rc : Errno} {l : List Report} (h : Unencoded f s rc l) :
    (rc = .EINVAL ∧ ∃ ti, l.head? = some { ti := ti, rc := rc, text := .notEncoded }) ∨
    (rc = .ENOTSUP ∧ ∃ ti max, l.head? = some { ti := ti, rc := rc, text := .surplus max }) := by
  induction h with
  | surplus h => exact .inr ⟨rfl, _, _, rfl⟩
  | value _ _ _ => exact .inl ⟨rfl, _, rfl⟩
  | inside _ _ ih =>
    rcases ih with ⟨a, ti, b⟩ | ⟨a, ti, max, b⟩
    · refine .inl ⟨a, ti, ?_⟩
      rw [List.head?_append, b]; rfl
    · refine .inr ⟨a, ti, max, ?_⟩
      rw [List.head?_append, b]; rfl
  | later _ ih => exact ih

-- An Association Release Request with a Node ID of unknown type; a Heartbeat Request.
example : encTlvR { type := 9 } [[.leaf (.nodeId (.other 7))]] ⟨100, []⟩ =
    (.err .EINVAL ⟨100, [0, 60, 0, 0, 7]⟩, [{ ti := { tag := 60 }, rc := .EINVAL, text := .notEncoded }]) := rfl
example : encTlvR { type := 1 } [[.leaf (.u32 258)]] ⟨100, []⟩ = (.ok ⟨100, [0, 96, 0, 4, 0, 0, 1, 2]⟩, []) := rfl
-- Without a layout, -ENOTSUP is returned and nothing is reported.
example : encTlvR { type := 77 } [] ⟨100, []⟩ = (.err .ENOTSUP ⟨100, []⟩, []) := rfl

end Verif.Props
