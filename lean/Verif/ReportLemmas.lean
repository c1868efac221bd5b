/-
Lemmas about error reporting: the functions of Report.lean return what those of DecEnc.lean return.
-/
import Verif.Report
import Verif.Meaning

namespace Verif

variable {A : Type}

@[simp] theorem Rep.bind_fst {α β} (x : Rep α) (f : α → Rep β) : (x.bind f).1 = x.1.bind fun a => (f a).1 := by
  obtain ⟨r, l⟩ := x
  cases r <;> rfl

@[simp] theorem returnError_fst {α} (rc : Errno) (ti : TagInst) (t : Complaint) : (returnError rc ti t : Rep α).1 = .err rc := rfl

theorem decodeOneR_fst (cs : List (RCoding A)) (slots : Struct A) (ti : TagInst) (p : List UInt8) (n : Nat) :
    (decodeOneR cs slots ti p n).1 = decodeOne (unreported cs) slots ti p n := by
  unfold decodeOneR decodeOne
  cases findSlot ti (unreported cs) slots 0 0 with
  | tooMany => rfl
  | full m => simp only; split <;> rfl
  | slot idx =>
    simp only [unreported, List.getElem?_map]
    cases hc : cs[idx]? with
    | none => rfl
    | some c =>
      cases hs : slots[idx]? with
      | none => rfl
      | some s =>
        simp only [Option.map_some]
        cases hd : c.c.dec with
        | none => rfl
        | some d =>
          simp only [Rep.bind_fst]
          cases hv : d p n <;> simp only [Res.bind]
          cases storeVal c.c.kind s _ <;> simp only
          split <;> rfl

theorem loopR_fst (cs : List (RCoding A)) : ∀ (fuel : Nat) (slots : Struct A) (g : Load),
    (decodeUnorderedLoopR cs fuel slots g).1.bind (fun x => .ok x.1) = decodeUnorderedLoop (unreported cs) fuel slots g := by
  intro fuel
  induction fuel with
  | zero => intro slots g; rfl
  | succ fuel ih =>
    intro slots g
    simp only [decodeUnorderedLoopR, decodeUnorderedLoop]
    cases loadNext g with
    | ok g' =>
      simp only
      cases g'.val with
      | none => rfl
      | some v =>
        simp only [Rep.bind_fst, decodeOneR_fst]
        cases decodeOne (unreported cs) slots g'.ti g'.valueMem g'.len <;> simp only [Res.bind]
        exact ih _ g'
    | err e g' => rfl
    | abort => rfl
    | ub => rfl
    | diverge => rfl

theorem checkMandatoryR_fst (last : TagInst) (cs : List (RCoding A)) : ∀ (ss : Struct A) (idx : Nat),
    (checkMandatoryR last cs ss idx).1 = checkMandatory (unreported cs) ss idx := by
  induction cs with
  | nil => intro ss idx; cases ss <;> rfl
  | cons c cs ih =>
    intro ss idx
    cases ss with
    | nil => rfl
    | cons s ss =>
      simp only [checkMandatoryR, unreported, List.map_cons, checkMandatory]
      cases c.c.kind with
      | opt => exact ih ss _
      | multi a b => simp only; split
                     · rfl
                     · exact ih ss _
      | mand => simp only; split
                · rfl
                · split
                  · rfl
                  · exact ih ss _

theorem decodeUnorderedR_fst (cs : List (RCoding A)) (g : Load) : (decodeUnorderedR cs g).1 = decodeUnordered (unreported cs) g := by
  unfold decodeUnorderedR decodeUnordered
  rw [← loopR_fst]
  simp only [Rep.bind_fst, checkMandatoryR_fst]
  cases (decodeUnorderedLoopR cs (g.srcLen + 2) (emptyStruct (unreported cs)) g.start).1 <;> rfl

theorem findLaterR_eq (ti : TagInst) (cs : List (RCoding A)) :
    findLater ti (unreported cs) = (findLaterR ti cs).map fun x => (x.1, x.2.1.c, unreported x.2.2) := by
  induction cs with
  | nil => rfl
  | cons c cs ih =>
    simp only [unreported, List.map_cons, findLater, findLaterR]
    by_cases h : tagInstCmp (some ti) (some c.c.ti) = 0
    · rw [if_pos h, if_pos h]; rfl
    · rw [if_neg h, if_neg h]
      have ih' : findLater ti (cs.map RCoding.c) = _ := ih
      rw [ih', Option.map_map, Option.map_map]
      rfl

/-- The position without reports. -/
def OrdPosR.plain (pos : OrdPosR A) : OrdPos A := { c := pos.c.c, s := pos.s, cs := Verif.unreported pos.cs, done := pos.done }

theorem ordTargetR_fst (pos : OrdPosR A) (ti : TagInst) :
    (ordTargetR pos ti).1.bind (fun x => .ok x.plain) = ordTarget pos.plain ti := by
  obtain ⟨⟨⟨ti0, kind, dec, enc⟩, nested, dr, er⟩, s, cs, done⟩ := pos
  cases kind with
  | multi max m =>
    have e : ordTarget (OrdPosR.plain ⟨⟨⟨ti0, .multi max m, dec, enc⟩, nested, dr, er⟩, s, cs, done⟩) ti =
        if s.length ≥ max then
          match findLater ti (Verif.unreported cs) with
          | none => .err .ENOTSUP
          | some (k, c', cs') => .ok { c := c', s := [], cs := cs', done := List.replicate k [] ++ s :: done }
        else .ok ⟨⟨ti0, .multi max m, dec, enc⟩, s, Verif.unreported cs, done⟩ := rfl
    rw [e]
    simp only [ordTargetR]
    by_cases h : s.length ≥ max
    · rw [if_pos h, if_pos h, findLaterR_eq]
      cases findLaterR ti cs with
      | none => rfl
      | some x => rfl
    · rw [if_neg h, if_neg h]; rfl
  | _ => rfl

theorem orderedR_fst : ∀ fuel : Nat,
    (∀ (cs : List (RCoding A)) done g, (decodeOrderedOuterR fuel cs done g).1 = decodeOrderedOuter fuel (unreported cs) done g) ∧
    (∀ (pos : OrdPosR A) g, (decodeOrderedInnerR fuel pos g).1 = decodeOrderedInner fuel pos.plain g) := by
  intro fuel
  induction fuel with
  | zero =>
    refine ⟨fun cs done g => ?_, fun pos g => ?_⟩
    · cases cs <;> rfl
    · rfl
  | succ fuel ih =>
    refine ⟨fun cs done g => ?_, fun pos g => ?_⟩
    · cases cs with
      | nil => rfl
      | cons c cs =>
        simp only [decodeOrderedOuterR, unreported, List.map_cons, decodeOrderedOuter]
        cases nextByTagInst g c.c.ti with
        | ok g' => exact ih.2 _ g'
        | err e g' =>
          cases e with
          | ENOENT =>
            simp only
            cases c.c.kind with
            | opt => exact ih.1 _ _ _
            | mand => rfl
            | multi a b =>
              simp only
              split
              · rfl
              · exact ih.1 _ _ _
          | _ => rfl
        | abort => rfl
        | ub => rfl
        | diverge => rfl
    · simp only [decodeOrderedInnerR, decodeOrderedInner, Rep.bind_fst, ← ordTargetR_fst]
      cases (ordTargetR pos g.ti).1 with
      | ok pos =>
        obtain ⟨⟨⟨ti0, kind, dec, enc⟩, nested, dr, er⟩, s0, cs, done⟩ := pos
        simp only [Res.bind_ok', OrdPosR.plain]
        cases dec with
        | none => rfl
        | some d =>
          simp only [Rep.bind_fst]
          cases d g.valueMem g.len with
          | ok v =>
            simp only [Res.bind_ok']
            cases storeVal kind s0 v with
            | ok s =>
              simp only [Res.bind_ok']
              cases kind with
              | multi a b =>
                simp only
                cases peekTag g with
                | ok ti =>
                  simp only
                  split
                  · exact ih.1 _ _ _
                  · cases loadNext g with
                    | ok g' => exact ih.2 _ g'
                    | _ => rfl
                | err e => exact ih.1 _ _ _
                | _ => rfl
              | _ => exact ih.1 _ _ _
            | _ => rfl
          | _ => rfl
      | _ => rfl

theorem decodeOrderedR_fst (cs : List (RCoding A)) (g : Load) : (decodeOrderedR cs g).1 = decodeOrdered (unreported cs) g := by
  unfold decodeOrderedR decodeOrdered
  rw [(orderedR_fst _).1]
  simp [unreported]

theorem gtlvsDecodeR_fst (g : Load) (ordered : Bool) (t : Option (List (RCoding A))) :
    (gtlvsDecodeR g ordered t).1 = gtlvsDecode g ordered (t.map unreported) := by
  cases t with
  | none => rfl
  | some cs =>
    simp only [gtlvsDecodeR, gtlvsDecode, Option.map_some]
    cases ordered
    · exact decodeUnorderedR_fst cs g
    · exact decodeOrderedR_fst cs g

theorem encodeValsR_fst (cfg : Cfg) (c : RCoding A) : ∀ (vs : List (Val A)) (i : Nat) (p : Put) (b : Msgb),
    (encodeValsR cfg c vs i p b).1 = encodeVals cfg c.c vs i p b := by
  intro vs
  induction vs with
  | nil => intro i p b; rfl
  | cons v vs ih =>
    intro i p b
    simp only [encodeValsR, encodeVals]
    split
    · rfl
    · cases c.c.enc with
      | none => rfl
      | some enc =>
        simp only
        cases enc v (ignoreErr (putTli cfg p b c.c.ti 0) p b).2 with
        | ok b1 => exact ih _ _ _
        | _ => rfl

theorem encodeTableR_fst (cfg : Cfg) (cs : List (RCoding A)) : ∀ (ss : Struct A) (p : Put) (b : Msgb),
    (encodeTableR cfg cs ss p b).1 = encodeTable cfg (unreported cs) ss p b := by
  induction cs with
  | nil => intro ss p b; rfl
  | cons c cs ih =>
    intro ss p b
    cases ss with
    | nil => rfl
    | cons s ss =>
      simp only [encodeTableR, unreported, List.map_cons, encodeTable]
      cases membVals c.c.kind s with
      | none => rfl
      | some vs =>
        simp only
        rw [← encodeValsR_fst]
        obtain ⟨r, l⟩ := encodeValsR cfg c vs 0 p b
        cases r with
        | ok pb => exact ih _ _ _
        | _ => rfl

theorem gtlvsEncodeR_fst (cfg : Cfg) (s : Struct A) (b : Msgb) (t : Option (List (RCoding A))) :
    (gtlvsEncodeR cfg s b t).1 = gtlvsEncode cfg s b (t.map unreported) := by
  cases t with
  | none => rfl
  | some cs => simp only [gtlvsEncodeR, gtlvsEncode, Option.map_some, encodeTableR_fst]

mutual
theorem Ty.rcoding_c (tag : Nat) (kind : Kind) (ty : Ty) : (ty.rcoding tag kind).c = ty.coding tag kind := by
  match ty with
  | .ie k => rfl
  | .group f => simp only [Ty.rcoding, nestedRCoding, Ty.coding, Fields.rcodings_plain f]
theorem Fields.rcodings_plain (f : Fields) : unreported f.rcodings = f.codings := by
  match f with
  | .nil => rfl
  | .cons tag kind ty f =>
    have h1 := Ty.rcoding_c tag kind ty
    have h2 : f.rcodings.map RCoding.c = f.codings := Fields.rcodings_plain f
    simp only [Fields.rcodings, unreported, List.map_cons, Fields.codings, h1, h2]
end

theorem decodeTlvR_fst (d : DecHdr) : (decodeTlvR d).1 = decodeTlv d := by
  unfold decodeTlvR decodeTlv
  rw [gtlvsDecodeR_fst, msgCoding, Option.map_map]
  congr 2
  funext f
  exact f.rcodings_plain

theorem encTlvR_fst (h : Hdr) (ies : Struct IeVal) (b : Msgb) : (encTlvR h ies b).1 = encTlv h ies b := by
  unfold encTlvR encTlv
  rw [gtlvsEncodeR_fst, msgCoding, Option.map_map]
  congr 2
  funext f
  exact f.rcodings_plain

end Verif
