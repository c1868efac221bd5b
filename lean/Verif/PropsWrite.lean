/-
C106: encoding, exactly.
-/
import Verif.WriteLemmas
import Verif.PropsReport

namespace Verif.Props
open Verif Spec
variable {A : Type}

/-- C106: encoding a struct with any table, to a buffer with any octets and any room: success, error code or abort, the
octets in the buffer afterwards, also if it fails, and the reports. -/
theorem C106_encoding_exactly (w : Width) (table : List (RCoding A)) (hw : ∀ c ∈ table, WritesBehind c) (s : Struct A)
    (hs : Members table s) (b : Msgb) (hb : b.data.length ≤ b.cap) :
    gtlvsEncodeR w.cfg s b (some table) =
      (behind b (Page.out w (writeStruct w (b.cap - b.data.length) table s {}).1),
        (writeStruct w (b.cap - b.data.length) table s {}).2) := by
  rw [← writeAny_eq w _ table s hs]
  exact (gtlvsEncodeR_any w table hw s b hb).1

/-- C106: an entry whose encoder appends is one C106_encoding_exactly is about. -/
theorem C106_plain (c : Coding A) (h : ∀ e, c.enc = some e → ∀ v, AddsTo (e v)) : WritesBehind (leafRCoding c) :=
  fun e he v => ⟨h e he v, fun _ _ => rfl⟩

/-- C106: so is an entry with nested IEs, if those of the inner table are; so the theorem applies to any depth. -/
theorem C106_nested (ti : TagInst) (kind : Kind) (w : Width) (ordered : Bool) (inner : List (RCoding A))
    (h : ∀ c ∈ inner, WritesBehind c) : WritesBehind (nestedRCoding ti kind w.cfg ordered inner) :=
  WritesBehind.nested ti kind w ordered inner h

/-- C106: the encoders of all PFCP IEs append, whatever the value. -/
theorem C106_ies (tag : Nat) (kind : Kind) (k : IeKind) : WritesBehind (leafRCoding (ieCoding tag kind k)) := by
  refine C106_plain _ ?_
  intro e he v
  simp only [ieCoding, leafCoding, Option.some.injEq] at he
  subst he
  cases v with
  | leaf v => exact AddsTo.ite _ (ieEnc_appends v) AddsTo.ub
  | node s => exact AddsTo.ub

mutual
theorem Ty.writesBehind (ty : Ty) (tag : Nat) (kind : Kind) : WritesBehind (ty.rcoding tag kind) := by
  match ty with
  | .ie k => exact C106_ies tag kind k
  | .group f => exact C106_nested _ _ .w16 _ _ (Fields.writesBehind f)
theorem Fields.writesBehind (f : Fields) : ∀ c ∈ f.rcodings, WritesBehind c := by
  match f with
  | .nil => intro c hc; simp [Fields.rcodings] at hc
  | .cons t k ty f =>
    intro c hc
    simp only [Fields.rcodings, List.mem_cons] at hc
    rcases hc with rfl | hc
    · exact Ty.writesBehind ty t k
    · exact Fields.writesBehind f c hc
end

/-- C106: the IEs of every PFCP message, with any values, also out of range. -/
theorem C106_message (h : Hdr) (f : Fields) (hf : message h.type = some f) (ies : Struct IeVal) (hs : Members f.rcodings ies)
    (b : Msgb) (hb : b.data.length ≤ b.cap) :
    encTlvR h ies b =
      (behind b (Page.out .w16 (writeStruct .w16 (b.cap - b.data.length) f.rcodings ies {}).1),
        (writeStruct .w16 (b.cap - b.data.length) f.rcodings ies {}).2) := by
  have := C106_encoding_exactly .w16 f.rcodings (Fields.writesBehind f) ies hs b hb
  unfold encTlvR
  rw [(msgFields_eq _).trans hf]
  exact this

/-- C106: a value too long for the length field is written with length 0, and encoding succeeds: the receiver takes its octets
for further IEs. -/
theorem C106_too_long (w : Width) (t : Nat) (ht : t ≤ w.largest) (o : List UInt8) (ho : w.largest < o.length) (b : Msgb)
    (hb : b.data.length + w.tl + o.length ≤ b.cap) :
    gtlvsEncodeR w.cfg [[.leaf o]] b (some [leafRCoding (raw t .mand)]) =
      (.ok { b with data := b.data ++ w.octets [(t, [])] ++ o }, []) := by
  have hw : ∀ c ∈ [leafRCoding (raw t .mand)], WritesBehind c := by
    intro c hc
    rw [List.mem_singleton.1 hc]
    refine C106_plain _ ?_
    intro e he v
    simp only [raw, leafCoding, Option.some.injEq] at he
    subst he
    cases v with
    | leaf o => exact AddsTo.put o
    | node s => exact AddsTo.ub
  have hs : Members [leafRCoding (raw t .mand)] [[.leaf o]] := by
    refine ⟨rfl, ?_⟩
    intro i c vs hc hv
    match i with
    | 0 =>
      simp only [List.getElem?_cons_zero, Option.some.injEq] at hc hv
      subst hc; subst hv
      rfl
    | i + 1 => simp at hc
  rw [C106_encoding_exactly w _ hw _ hs b (by omega)]
  have hbg : Page.begin w (b.cap - b.data.length) { tag := t } {} = { lead := [], ies := [({ tag := t }, 0, [])] } := by
    unfold Page.begin
    exact if_pos ⟨ht, by simp [Page.octets]; omega⟩
  have hl : (Page.octets w { lead := [], ies := [({ tag := t }, 0, [])] }).length = w.tl := by
    rw [Page.octets_cons, ieOctets_eq]
    simp [hdr_length, Page.octets]
  have he : encodedIn (leafRCoding (raw t .mand)) (.leaf o) (b.cap - b.data.length - w.tl) = (.ok o, []) := by
    simp only [encodedIn, leafRCoding, raw, leafCoding, Msgb.put, List.length_nil, Nat.zero_add, List.nil_append]
    rw [if_pos (by omega)]
  have hst : (Page.append o { lead := [], ies := [({ tag := t }, 0, [])] }).settle w =
      { lead := [], ies := [({ tag := t }, 0, o)] } := by
    simp only [Page.append, Page.settle, List.nil_append]
    rw [if_neg (by omega)]
  have hk : ¬ most (leafRCoding (raw t .mand)).c.kind ≤ 0 := Nat.not_succ_le_zero 0
  have hti : (leafRCoding (raw t .mand)).c.ti = { tag := t } := rfl
  simp only [writeStruct, writeValues, writeValue, hti, hbg, hl, if_neg hk, he, Wrote.then, hst, Page.out, behind]
  have e := hdr_octets w { tag := t } []
  simp only [List.append_nil, List.length_nil] at e
  simp only [Page.octets_cons, ieOctets_eq, e]
  simp [Page.octets]

/-! Cases: a nested IE with a value that cannot be encoded; three values where there is room for two; a tag that does not fit;
no room for a TL; and a value that does not fit. -/

/-- A table with nested IEs and a repeated IE. -/
def exWTable : List (RCoding (List UInt8)) :=
  [nestedRCoding { tag := 1 } .opt t8l8v false [leafRCoding (raw 5 .mand)], leafRCoding (raw 2 (.multi 2 0)),
   leafRCoding (raw 300 .opt)]

theorem exWTable_ok : ∀ c ∈ exWTable, WritesBehind c := by
  have hr : ∀ t k, WritesBehind (leafRCoding (raw t k)) := by
    intro t k
    refine C106_plain _ ?_
    intro e he v
    simp only [raw, leafCoding, Option.some.injEq] at he
    subst he
    cases v with
    | leaf o => exact AddsTo.put o
    | node s => exact AddsTo.ub
  intro c hc
  simp only [exWTable, List.mem_cons, List.not_mem_nil, or_false] at hc
  rcases hc with rfl | rfl | rfl
  · exact C106_nested _ _ .w8 _ _ fun c hc => by rw [List.mem_singleton.1 hc]; exact hr _ _
  · exact hr _ _
  · exact hr _ _

/-- A struct for it. -/
def exWStruct (n : Nat) (last : List (List UInt8)) : Struct (List UInt8) :=
  [[.node [[.leaf [7, 8]]]], List.replicate n (.leaf [9]), last.map .leaf]

theorem exWStruct_ok (n : Nat) (last : List (List UInt8)) (h : last.length ≤ 1) : Members exWTable (exWStruct n last) := by
  refine ⟨rfl, ?_⟩
  intro i c vs hc hv
  match i with
  | 0 => simp only [exWTable, exWStruct, List.getElem?_cons_zero, Option.some.injEq] at hc hv; subst hc; subst hv; exact Nat.le_refl 1
  | 1 => simp only [exWTable, exWStruct, List.getElem?_cons_succ, List.getElem?_cons_zero, Option.some.injEq] at hc hv; subst hc; trivial
  | 2 =>
    simp only [exWTable, exWStruct, List.getElem?_cons_succ, List.getElem?_cons_zero, Option.some.injEq] at hc hv
    subst hc; subst hv
    show (last.map Val.leaf).length ≤ 1
    simpa using h
  | i + 3 => simp [exWTable] at hc

/-- All octets of the outcome and the reports. -/
def exWOut (n : Nat) (last : List (List UInt8)) (room : Nat) : Out (List UInt8) × List Report :=
  (Page.out .w8 (writeStruct .w8 room exWTable (exWStruct n last) {}).1, (writeStruct .w8 room exWTable (exWStruct n last) {}).2)

example : exWOut 2 [] 20 = (.ok [1, 4, 5, 2, 7, 8, 2, 1, 9, 2, 1, 9], []) := rfl
example : exWOut 3 [] 20 = (.err .ENOTSUP [1, 4, 5, 2, 7, 8, 2, 1, 9, 2, 1, 9, 2, 0],
    [{ ti := { tag := 2 }, rc := .ENOTSUP, text := .surplus 2 }]) := rfl
example : exWOut 1 [[3]] 20 = (.ok [1, 4, 5, 2, 7, 8, 2, 2, 9, 3], []) := rfl
example : exWOut 1 [] 7 = (.ok [1, 5, 5, 2, 7, 8, 9], []) := rfl
example : exWOut 1 [] 6 = (.abort, []) := rfl
example : exWOut 0 [] 3 = (.abort, []) := rfl
-- The model agrees.
example : gtlvsEncodeR t8l8v (exWStruct 1 [[3]]) ⟨22, [0, 0]⟩ (some exWTable) = (.ok ⟨22, [0, 0, 1, 4, 5, 2, 7, 8, 2, 2, 9, 3]⟩, []) := rfl
-- An Association Release Request with a Node ID of unknown type, in a buffer with an octet.
example : encTlvR { type := 9 } [[.leaf (.nodeId (.other 7))]] ⟨100, [1]⟩ =
    (.err .EINVAL ⟨100, [1, 0, 60, 0, 0, 7]⟩, [{ ti := { tag := 60 }, rc := .EINVAL, text := .notEncoded }]) := rfl

end Verif.Props
