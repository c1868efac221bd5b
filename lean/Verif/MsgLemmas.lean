/-
Lemmas about message tables: round trip, independence of what is behind, safety.
-/
import Verif.SpecMsg
import Verif.PropsDecEnc2
import Verif.IesLemmas4
import Verif.PropsIes

namespace Verif
open Spec Props

/-! ### Well-formed layouts -/

def Fields.tags : Fields → List Nat
  | .nil => []
  | .cons t _ _ f => t :: f.tags

mutual
/-- Distinct tags that fit, on all levels; not too many. -/
def Ty.Wf : Ty → Prop
  | .ie _ => True
  | .group f => f.Wf ∧ f.tags.length ≤ 4096
def Fields.Wf : Fields → Prop
  | .nil => True
  | .cons t _ ty f => t ≤ 65535 ∧ t ∉ f.tags ∧ ty.Wf ∧ f.Wf
end

theorem Ty.coding_ti (tag : Nat) (kind : Kind) (ty : Ty) :
    (ty.coding tag kind).ti = { tag := tag } ∧ (ty.coding tag kind).kind = kind := by
  cases ty <;> simp [Ty.coding, ieCoding, leafCoding, nestedCoding]

theorem Fields.codings_tags (f : Fields) : f.codings.map (·.ti) = f.tags.map fun t => { tag := t } := by
  match f with
  | .nil => rfl
  | .cons t k ty f =>
    simp only [Fields.codings, Fields.tags, List.map_cons, (Ty.coding_ti t k ty).1, f.codings_tags]

theorem Fields.codings_length (f : Fields) : f.codings.length = f.tags.length := by
  have := congrArg List.length f.codings_tags
  simpa using this

theorem Fields.Wf.nodup {f : Fields} (h : f.Wf) : f.tags.Nodup := by
  match f with
  | .nil => simp [Fields.tags]
  | .cons t k ty f =>
    simp only [Fields.Wf] at h
    exact List.nodup_cons.mpr ⟨h.2.1, Fields.Wf.nodup h.2.2.2⟩

theorem Fields.Wf.nodup' {f : Fields} (h : f.Wf) : (f.codings.map (·.ti)).Nodup := by
  rw [f.codings_tags]
  have := h.nodup
  unfold List.Nodup at this ⊢
  rw [List.pairwise_map]
  exact this.imp (fun h e => h (by simpa using e))

theorem msgFields_wf {t : Nat} {f : Fields} (h : msgFields t = some f) : f.Wf ∧ f.tags.length ≤ 4096 := by
  unfold msgFields at h
  split at h <;> simp only [Option.some.injEq, reduceCtorEq] at h <;> subst h <;>
    simp [Fields.Wf, Ty.Wf, Fields.tags, iesInHeartbeat, iesInAssocSetupReq, iesInAssocSetupResp,
      iesInAssocReleaseReq, iesInAssocReleaseResp, iesInSessionEstReq, iesInSessionEstResp, iesInSessionModReq,
      iesInSessionModResp, iesInSessionDelReq, iesInSessionDelResp, iesInPdi, iesInCreatePdr, iesInCreatedPdr,
      iesInUpdPdr, iesInUpdatedPdr, iesInRemovePdr, iesInForwParams, iesInUpdForwParams, iesInCreateFar,
      iesInRemoveFar, iesInUpdFar]

/-! ### Round trip -/

/-- The IEs of a struct. -/
def ieList : Fields → Struct IeVal → List Ie
  | .cons t _ ty f, vs :: s => (vs.map fun v => (t, valueOctets ty v)) ++ ieList f s
  | _, _ => []

theorem structOctets_eq (f : Fields) (s : Struct IeVal) : structOctets f s = octets16 (ieList f s) := by
  match f, s with
  | .nil, _ => simp [structOctets, ieList, octets16]
  | .cons _ _ _ _, [] => simp [structOctets, ieList, octets16]
  | .cons t k ty f, vs :: s =>
    simp only [structOctets, ieList, octets16, List.flatMap_append]
    rw [structOctets_eq f s, octets16]
    congr 1
    simp [List.flatMap_map]

/-- Behind the data there is a NUL if the data needs one. -/
def NulIf (P : Prop) (rest : List UInt8) : Prop := P → (0 : UInt8) ∈ rest

theorem NulIf.append {P : Prop} (x r : List UInt8) (h : NulIf P r) : NulIf P (x ++ r) :=
  fun hp => List.mem_append_right _ (h hp)

theorem ie16_length (x : Ie) : (ie16 x).length = 4 + x.2.length := by simp [ie16]; omega

theorem octets16_mem_le {x : Ie} {l : List Ie} (h : x ∈ l) : 4 + x.2.length ≤ (octets16 l).length := by
  induction l with
  | nil => simp at h
  | cons y l ih =>
    simp only [octets16, List.flatMap_cons, List.length_append, ie16_length] at ih ⊢
    rcases List.mem_cons.mp h with rfl | h
    · omega
    · have := ih h; omega

theorem all2_map {α β} {R : α → β → Prop} {l : List α} {g : α → β} (h : ∀ a ∈ l, R a (g a)) :
    All2 R l (l.map g) := by
  induction l with
  | nil => exact .nil
  | cons a l ih => exact .cons (h a (by simp)) (ih (fun x hx => h x (by simp [hx])))

mutual
theorem Ty.codes (P : Prop) (ty : Ty) (tag : Nat) (kind : Kind) (v : Val IeVal) (hw : ty.Wf) (hg : GoodVal ty v)
    (hl : (valueOctets ty v).length ≤ 65535) (hP : HasRuleName ty v → P) :
    CodesWhen (NulIf P) (ty.coding tag kind) v (valueOctets ty v) := by
  match ty, v with
  | .ie k, .node s => simp [GoodVal, ValOf] at hg
  | .group f, .leaf v => simp [GoodVal, ValOf] at hg
  | .ie k, .leaf v =>
    simp only [GoodVal, ValOf] at hg
    obtain ⟨rfl, hr⟩ := hg
    simp only [HasRuleName] at hP
    refine ⟨⟨_, rfl, ?_⟩, _, rfl, ?_⟩
    · intro b hb
      have := C35_encodes v hr b (by simpa [valueOctets] using hb)
      simpa [valueOctets] using this
    · intro tail ht
      simp only [valueOctets]
      rw [C35_decodes v hr tail (fun hk => ht (hP hk))]
      rfl
  | .group f, .node s =>
    simp only [GoodVal, ValOf] at hg
    simp only [valueOctets] at hl ⊢
    simp only [HasRuleName] at hP
    simp only [Ty.Wf] at hw
    obtain ⟨h1, h2⟩ := Fields.encodes P f s hw.1 hg hl hP
    obtain ⟨h3, h4⟩ := octets16_eq (ieList f s) h2
    rw [structOctets_eq]
    refine ⟨⟨_, rfl, ?_⟩, _, rfl, ?_⟩
    · rw [← h3]
      exact gtlvsEncode_eq t16l16v_lawful (h1.mono (fun _ _ _ x => x.1) (fun _ _ x => x.fits)) h4 (fun _ _ => dom16_zero)
    · intro tail ht
      simp only [gtlvsDecode]
      have := decodeUnordered_encodesWhen t16l16v_lawful hw.1.nodup'
        (by rw [f.codings_length]; exact hw.2) (F := NulIf P) NulIf.append h1 h4 tail ht
      rw [h3] at this
      simp only [Bool.false_eq_true, if_false]
      rw [this]; rfl
theorem Fields.encodes (P : Prop) (f : Fields) (s : Struct IeVal) (hw : f.Wf) (hg : GoodStruct f s)
    (hl : (structOctets f s).length ≤ 65535) (hP : HasRuleNames f s → P) :
    Encodes (CodesWhen (NulIf P)) Kind.obeys f.codings s ((ieList f s).map asIe) ∧
      ∀ x ∈ ieList f s, Fits16 x := by
  match f, s with
  | .nil, [] => exact ⟨by simpa [Fields.codings, ieList] using Encodes.nil, by simp [ieList]⟩
  | .nil, _ :: _ => simp [GoodStruct, StructOf] at hg
  | .cons _ _ _ _, [] => simp [GoodStruct, StructOf] at hg
  | .cons t k ty f, vs :: s =>
    simp only [GoodStruct, StructOf] at hg
    simp only [Fields.Wf] at hw
    simp only [HasRuleNames] at hP
    obtain ⟨⟨g1, g2⟩, g3, g4⟩ := hg
    obtain ⟨w1, w2, w3, w4⟩ := hw
    have hle := hl
    rw [structOctets_eq] at hle
    simp only [structOctets, List.length_append] at hl
    obtain ⟨i1, i2⟩ := Fields.encodes P f s w4 g4 (by omega) (fun h => hP (.inr h))
    have hv : ∀ v ∈ vs, (valueOctets ty v).length ≤ 65535 := by
      intro v hv
      have : (t, valueOctets ty v) ∈ ieList (.cons t k ty f) (vs :: s) := by
        simp only [ieList, List.mem_append, List.mem_map]
        exact .inl ⟨v, hv, rfl⟩
      have := octets16_mem_le this
      simp only at this
      omega
    refine ⟨?_, ?_⟩
    · simp only [Fields.codings, ieList, List.map_append, List.map_map]
      have e : (List.map (asIe ∘ fun v => (t, valueOctets ty v)) vs) =
          (vs.map (valueOctets ty)).map fun bs => ((ty.coding t k).ti, bs) := by
        simp [(Ty.coding_ti t k ty).1, asIe]
      rw [e]
      refine .cons ?_ (all2_map ?_) i1
      · rw [(Ty.coding_ti t k ty).2]
        cases k <;> simp [least, most, Kind.obeys] at g1 g2 ⊢ <;> omega
      · intro v hvv
        exact Ty.codes P ty t k v w3 (g3 v hvv) (hv v hvv) (fun h => hP (.inl ⟨v, hvv, h⟩))
    · intro x hx
      simp only [ieList, List.mem_append, List.mem_map] at hx
      rcases hx with ⟨v, hvv, rfl⟩ | hx
      · exact ⟨w1, hv v hvv⟩
      · exact i2 x hx
end

/-- Round trip of the IEs of a message. -/
theorem Fields.roundTrip (f : Fields) (s : Struct IeVal) (hw : f.Wf ∧ f.tags.length ≤ 4096) (hg : GoodStruct f s)
    (hl : (structOctets f s).length ≤ 65535) :
    Appends (fun b => gtlvsEncode t16l16v s b (some f.codings)) (structOctets f s) ∧
    ∀ rest, (HasRuleNames f s → 0 ∈ rest) →
      gtlvsDecode { cfg := t16l16v, mem := structOctets f s ++ rest, srcLen := (structOctets f s).length } false
        (some f.codings) = .ok s := by
  obtain ⟨h1, h2⟩ := Fields.encodes (HasRuleNames f s) f s hw.1 hg hl id
  obtain ⟨h3, h4⟩ := octets16_eq (ieList f s) h2
  rw [structOctets_eq, ← h3]
  refine ⟨gtlvsEncode_eq t16l16v_lawful (h1.mono (fun _ _ _ x => x.1) (fun _ _ x => x.fits)) h4 (fun _ _ => dom16_zero), ?_⟩
  intro rest hr
  have := decodeUnordered_encodesWhen t16l16v_lawful hw.1.nodup'
        (by rw [f.codings_length]; exact hw.2) (F := NulIf (HasRuleNames f s)) NulIf.append h1 h4 rest hr
  simpa [gtlvsDecode] using this

/-! ### Decoding depends on the IEs only, and returns -/

variable {A : Type}

/-- Two runs over the same octets with different memory behind. -/
theorem decodeMany_congr {codings : List (Coding A)} {es es' : List Ev}
    (h : All2 (fun (e e' : Ev) => e.1 = e'.1 ∧ e.2.2 = e'.2.2 ∧
      ∀ c ∈ codings, ∀ d, c.dec = some d → d e.2.1 e.2.2 = d e'.2.1 e'.2.2) es es') :
    ∀ slots, decodeMany codings es slots = decodeMany codings es' slots := by
  induction h with
  | nil => intro _; rfl
  | @cons e e' es es' h1 _ ih =>
    intro slots
    obtain ⟨ti, p, n⟩ := e
    obtain ⟨ti', p', n'⟩ := e'
    obtain ⟨rfl, rfl, h3⟩ := h1
    simp only at h3
    simp only [decodeMany]
    rw [decodeOne_congr slots ti p p' n h3]
    congr 1
    funext s
    exact ih s

/-- The decoder's outcome is the same for all memories behind the IE that satisfy `F`. -/
def Coding.LocalWhen (F : List UInt8 → Prop) (c : Coding A) : Prop :=
  ∀ d, c.dec = some d → ∀ v r r', F r → F r' → d (v ++ r) v.length = d (v ++ r') v.length

/-- The decoder returns, if the memory behind the IE satisfies `F`. -/
def Coding.ReturnsWhen (F : List UInt8 → Prop) (c : Coding A) : Prop :=
  ∀ d, c.dec = some d → ∀ v r, F r → (d (v ++ r) v.length).Returns

theorem decodeUnordered_junk {c : Cfg} {hdr dom} (h : c.Lawful hdr dom) (codings : List (Coding A))
    (v r : List UInt8) (l : List (TagInst × List UInt8)) (junk : List UInt8) (e : v = tlvBytes hdr l ++ junk)
    (hd : tlvsDom dom l) (hj : junk = [] ∨ BadRest c hdr dom junk) :
    ∃ es, EvsOf es l ∧ (∀ e ∈ es, ∃ x, e.2.1.drop e.2.2 = x ++ r) ∧
      decodeUnordered codings { cfg := c, mem := v ++ r, srcLen := v.length } =
        (decodeMany codings es (emptyStruct codings)).bind fun slots =>
          if junk = [] then (checkMandatory codings slots 0).bind fun _ => .ok slots
          else .err .EBADMSG := by
  have ha : Load.At { cfg := c, mem := v ++ r, srcLen := v.length } c (tlvBytes hdr l ++ junk) := by
    refine ⟨rfl, by simp, by simp [Load.pos], by rw [← e]; simp [Load.rest, Load.pos]⟩
  obtain ⟨es, h1, h0, h2⟩ := loop_eq h codings l junk hd hj _ ha
  refine ⟨es, h1, by simpa using h0, ?_⟩
  unfold decodeUnordered
  have hlen : l.length < v.length + 2 := by
    have h4 := tlvBytes_length_ge h l
    have := h.tlMin_pos
    have : l.length ≤ l.length * c.tlMin := Nat.le_mul_of_pos_right _ this
    rw [e]; simp only [List.length_append]; omega
  simp only [Load.start]
  rw [h2 _ _ hlen]
  cases decodeMany codings es (emptyStruct codings) <;> simp only [Res.bind]
  by_cases hjj : junk = [] <;> simp [hjj]

theorem decodeUnordered_localWhen {cfg : Cfg} {hdr dom} (h : cfg.Lawful hdr dom) (codings : List (Coding A))
    {F : List UInt8 → Prop} (hF : ∀ x r, F r → F (x ++ r)) (hc : ∀ c ∈ codings, c.LocalWhen F)
    (v r r' : List UInt8) (hr : F r) (hr' : F r') :
    decodeUnordered codings { cfg := cfg, mem := v ++ r, srcLen := v.length } =
      decodeUnordered codings { cfg := cfg, mem := v ++ r', srcLen := v.length } := by
  obtain ⟨l, junk, e, d, j⟩ := parse_total h _ v (Nat.le_refl _)
  obtain ⟨es, ⟨a1, a2⟩, a3, a4⟩ := decodeUnordered_junk h codings v r l junk e d j
  obtain ⟨es', ⟨b1, b2⟩, b3, b4⟩ := decodeUnordered_junk h codings v r' l junk e d j
  rw [a4, b4]
  congr 1
  apply decodeMany_congr
  have hall : es.map Ev.tlv = es'.map Ev.tlv := a1.trans b1.symm
  clear a4 b4 a1 b1
  induction es generalizing es' with
  | nil =>
    cases es' with
    | nil => exact .nil
    | cons _ _ => simp at hall
  | cons x es ih =>
    cases es' with
    | nil => simp at hall
    | cons y es' =>
      simp only [List.map_cons, List.cons.injEq] at hall
      refine .cons ?_ (ih (fun e he => a2 e (by simp [he])) (fun e he => a3 e (by simp [he])) es'
        (fun e he => b2 e (by simp [he])) (fun e he => b3 e (by simp [he])) hall.2)
      obtain ⟨ti, p, n⟩ := x
      obtain ⟨ti', p', n'⟩ := y
      have h1 := hall.1
      simp only [Ev.tlv, Prod.mk.injEq] at h1
      have hn : n ≤ p.length := a2 (ti, p, n) (by simp)
      have hn' : n' ≤ p'.length := b2 (ti', p', n') (by simp)
      have hnn : n = n' := by
        have := congrArg List.length h1.2
        simp at this; omega
      subst hnn
      refine ⟨h1.1, rfl, ?_⟩
      intro c hcc d hd
      obtain ⟨x, hx⟩ := a3 (ti, p, n) (by simp)
      obtain ⟨y, hy⟩ := b3 (ti', p', n) (by simp)
      have := hc c hcc d hd (p.take n) (x ++ r) (y ++ r') (hF _ _ hr) (hF _ _ hr')
      simp only at hx hy
      rw [← hx, ← hy, List.take_append_drop] at this
      rw [h1.2, List.take_append_drop] at this
      rw [List.length_take, Nat.min_eq_left hn'] at this
      exact this

theorem decodeUnordered_returnsWhen {cfg : Cfg} {hdr dom} (h : cfg.Lawful hdr dom) (codings : List (Coding A))
    {F : List UInt8 → Prop} (hF : ∀ x r, F r → F (x ++ r)) (hc : ∀ c ∈ codings, c.ReturnsWhen F)
    (v r : List UInt8) (hr : F r) :
    (decodeUnordered codings { cfg := cfg, mem := v ++ r, srcLen := v.length }).Returns := by
  obtain ⟨l, junk, e, d, j⟩ := parse_total h _ v (Nat.le_refl _)
  obtain ⟨es, ⟨a1, a2⟩, a3, a4⟩ := decodeUnordered_junk h codings v r l junk e d j
  rw [a4]
  have := decodeMany_returns es (codings := codings) (slots := emptyStruct codings) (by
    intro c hcc d hd e he
    obtain ⟨x, hx⟩ := a3 e he
    have := hc c hcc d hd (e.2.1.take e.2.2) (x ++ r) (hF _ _ hr)
    rw [← hx, List.take_append_drop, List.length_take, Nat.min_eq_left (a2 e he)] at this
    exact this) (emptyStruct_ok codings)
  cases hm : decodeMany codings es (emptyStruct codings) with
  | ok s =>
    simp only [Res.bind_ok']
    split
    · have := checkMandatory_returns codings s 0
      cases hk : checkMandatory codings s 0 <;> rw [hk] at this <;> simp_all [Res.Returns, Res.bind]
    · trivial
  | err e => trivial
  | _ => rw [hm] at this; exact this.elim

mutual
theorem Ty.localWhen (ty : Ty) (tag : Nat) (kind : Kind) :
    (ty.coding tag kind).LocalWhen (fun r => (0 : UInt8) ∈ r) ∧ (ty.coding tag kind).ReturnsWhen (fun r => (0 : UInt8) ∈ r) := by
  match ty with
  | .ie k =>
    have key : ∀ v r : List UInt8, (0 : UInt8) ∈ r → ∃ x : Res IeVal, x.Returns ∧ ieDec k (v ++ r) v.length = x ∧
        ∀ r' : List UInt8, (0 : UInt8) ∈ r' → ieDec k (v ++ r') v.length = x := by
      intro v r hr
      by_cases hk : k = .apr
      · subst hk
        exact ⟨.ok (.apr ((cstr v).take 255)), trivial, C36_apr_partial v r hr, fun r' hr' => C36_apr_partial v r' hr'⟩
      · exact ⟨_, (ieDec_local k hk v r).2, (ieDec_local k hk v r).1, fun r' _ => (ieDec_local k hk v r').1⟩
    constructor
    · intro d hd v r r' hr hr'
      simp only [Ty.coding, ieCoding, leafCoding, Option.some.injEq] at hd
      subst hd
      obtain ⟨x, h1, h2, h3⟩ := key v r hr
      simp only [h2, h3 r' hr']
    · intro d hd v r hr
      simp only [Ty.coding, ieCoding, leafCoding, Option.some.injEq] at hd
      subst hd
      obtain ⟨x, h1, h2, h3⟩ := key v r hr
      simp only [h2]
      cases x <;> simp_all [Res.Returns, Res.bind]
  | .group f =>
    have hf := Fields.localWhen f
    constructor
    · intro d hd v r r' hr hr'
      simp only [Ty.coding, nestedCoding, Option.some.injEq] at hd
      subst hd
      simp only [gtlvsDecode, Bool.false_eq_true, if_false]
      rw [decodeUnordered_localWhen t16l16v_lawful f.codings (fun x r h => List.mem_append_right x h)
        (fun c hc => (hf c hc).1) v r r' hr hr']
    · intro d hd v r hr
      simp only [Ty.coding, nestedCoding, Option.some.injEq] at hd
      subst hd
      simp only [gtlvsDecode, Bool.false_eq_true, if_false]
      have := decodeUnordered_returnsWhen t16l16v_lawful f.codings (fun x r h => List.mem_append_right x h)
        (fun c hc => (hf c hc).2) v r hr
      cases hx : decodeUnordered f.codings { cfg := t16l16v, mem := v ++ r, srcLen := v.length } <;>
        rw [hx] at this <;> simp_all [Res.Returns, Res.bind]
theorem Fields.localWhen (f : Fields) : ∀ c ∈ f.codings, c.LocalWhen (fun r => (0 : UInt8) ∈ r) ∧ c.ReturnsWhen (fun r => (0 : UInt8) ∈ r) := by
  match f with
  | .nil => simp [Fields.codings]
  | .cons t k ty f =>
    intro c hc
    simp only [Fields.codings, List.mem_cons] at hc
    rcases hc with rfl | hc
    · exact Ty.localWhen ty t k
    · exact Fields.localWhen f c hc
end

/-! ### What decoding yields -/

theorem decoded_members {table : List (Coding A)} (hnd : (table.map (·.ti)).Nodup)
    (hcap : ∀ c ∈ table, c.kind.cap ≠ 0) (mem : List UInt8) (len : Nat) (hw : len ≤ mem.length) (s : Struct A)
    (h : gtlvsDecode { cfg := t16l16v, mem := mem, srcLen := len } false (some table) = .ok s) :
    s.length = table.length ∧ ∀ (i : Nat) c, table[i]? = some c → ∃ vs, s[i]? = some vs ∧
      (least c.kind ≤ vs.length ∧ vs.length ≤ most c.kind) ∧
      ∀ v ∈ vs, ∃ d p n, c.dec = some d ∧ n ≤ p.length ∧ d p n = .ok v := by
  obtain ⟨ies, es, _, _, h3, h4, h5⟩ := decodeUnordered_ok_inv .w16 table mem len hw s h
  have hok := (decodeMany_ok es (emptyStruct_ok table) h4).1
  refine ⟨hok.len, ?_⟩
  intro i c hc
  have hi : i < table.length := by rw [List.getElem?_eq_some_iff] at hc; exact hc.1
  obtain ⟨vs, k1, k2⟩ := decodeMany_vals hnd es (emptyStruct_ok table) h4 i c [] hc
    (by simp [emptyStruct, hc]) (hcap c (List.mem_of_getElem? hc))
  simp only [List.nil_append] at k1
  refine ⟨vs, k1, ?_, ?_⟩
  · have hz : (c, vs) ∈ table.zip s := by
      have : (table.zip s)[i]? = some (c, vs) := by rw [List.getElem?_zip_eq_some]; exact ⟨hc, k1⟩
      exact List.mem_of_getElem? this
    have hm := checkMandatory_ok table s 0 hok.len h5 _ hz
    have hx := hok.cap _ hz
    simp only at hm hx
    cases hk : c.kind with
    | mand => have := hm.1 hk; rw [hk] at hx; simp [least, most, Kind.cap] at hx ⊢; omega
    | opt => rw [hk] at hx; simpa [least, most, Kind.cap] using hx
    | multi mx mn => have := hm.2 mx mn hk; rw [hk] at hx; simp [least, most, Kind.cap] at hx ⊢; omega
  · clear h5 k1
    intro v hv
    have hle : ∀ e ∈ es.filter (fun e => e.1 = c.ti), e.2.2 ≤ e.2.1.length :=
      fun e he => h3.2 e (List.mem_filter.mp he).1
    generalize es.filter (fun e => e.1 = c.ti) = es' at k2 hle
    clear h3 h4
    induction k2 with
    | nil => simp at hv
    | @cons e v' es' vs' hx _ ih =>
      rcases List.mem_cons.mp hv with rfl | hv
      · obtain ⟨d, hd, hdv⟩ := hx
        exact ⟨d, e.2.1, e.2.2, hd, hle e (by simp), hdv⟩
      · exact ih hv (fun e he => hle e (by simp [he]))

mutual
/-- Room for at least one value everywhere. -/
def Ty.Room : Ty → Prop
  | .ie _ => True
  | .group f => f.Room
def Fields.Room : Fields → Prop
  | .nil => True
  | .cons _ k ty f => k.cap ≠ 0 ∧ ty.Room ∧ f.Room
end

theorem Fields.Room.cap {f : Fields} (h : f.Room) : ∀ c ∈ f.codings, c.kind.cap ≠ 0 := by
  match f with
  | .nil => simp [Fields.codings]
  | .cons t k ty f =>
    simp only [Fields.Room] at h
    intro c hc
    simp only [Fields.codings, List.mem_cons] at hc
    rcases hc with rfl | hc
    · rw [(Ty.coding_ti t k ty).2]; exact h.1
    · exact Fields.Room.cap h.2.2 c hc

theorem msgFields_room {t : Nat} {f : Fields} (h : msgFields t = some f) : f.Room := by
  unfold msgFields at h
  split at h <;> simp only [Option.some.injEq, reduceCtorEq] at h <;> subst h <;>
    simp [Fields.Room, Ty.Room, Kind.cap, iesInHeartbeat, iesInAssocSetupReq, iesInAssocSetupResp,
      iesInAssocReleaseReq, iesInAssocReleaseResp, iesInSessionEstReq, iesInSessionEstResp, iesInSessionModReq,
      iesInSessionModResp, iesInSessionDelReq, iesInSessionDelResp, iesInPdi, iesInCreatePdr, iesInCreatedPdr,
      iesInUpdPdr, iesInUpdatedPdr, iesInRemovePdr, iesInForwParams, iesInUpdForwParams, iesInCreateFar,
      iesInRemoveFar, iesInUpdFar]

mutual
theorem Ty.decoded (ty : Ty) (tag : Nat) (kind : Kind) (hw : ty.Wf) (hr : ty.Room)
    (d : List UInt8 → Nat → Res (Val IeVal)) (hd : (ty.coding tag kind).dec = some d)
    (p : List UInt8) (n : Nat) (hn : n ≤ p.length) (v : Val IeVal) (hv : d p n = .ok v) : ValOf Decodable ty v := by
  match ty with
  | .ie k =>
    simp only [Ty.coding, ieCoding, leafCoding, Option.some.injEq] at hd
    subst hd
    obtain ⟨a, h1, h2⟩ := Res.bind_eq_ok hv
    simp only [Res.ok.injEq] at h2
    subst h2
    simp only [ValOf]
    exact dec_inRange k p n a h1
  | .group f =>
    simp only [Ty.coding, nestedCoding, Option.some.injEq] at hd
    subst hd
    obtain ⟨a, h1, h2⟩ := Res.bind_eq_ok hv
    simp only [Res.ok.injEq] at h2
    subst h2
    simp only [ValOf]
    simp only [Ty.Wf] at hw
    simp only [Ty.Room] at hr
    obtain ⟨k1, k2⟩ := decoded_members hw.1.nodup' hr.cap p n hn a h1
    exact Fields.decoded f a hw.1 hr k1 k2
theorem Fields.decoded (f : Fields) (s : Struct IeVal) (hw : f.Wf) (hr : f.Room) (hl : s.length = f.codings.length)
    (h : ∀ (i : Nat) c, f.codings[i]? = some c → ∃ vs, s[i]? = some vs ∧
      (least c.kind ≤ vs.length ∧ vs.length ≤ most c.kind) ∧
      ∀ v ∈ vs, ∃ d p n, c.dec = some d ∧ n ≤ p.length ∧ d p n = .ok v) : StructOf Decodable f s := by
  match f, s with
  | .nil, [] => simp [StructOf]
  | .nil, _ :: _ => simp [Fields.codings] at hl
  | .cons _ _ _ _, [] => simp [Fields.codings] at hl
  | .cons t k ty f, vs :: s =>
    simp only [Fields.Wf] at hw
    simp only [Fields.Room] at hr
    simp only [StructOf]
    obtain ⟨vs', h1, h2, h3⟩ := h 0 (ty.coding t k) (by simp [Fields.codings])
    simp only [List.getElem?_cons_zero, Option.some.injEq] at h1
    subst h1
    rw [(Ty.coding_ti t k ty).2] at h2
    refine ⟨h2, ?_, ?_⟩
    · intro v hv
      obtain ⟨d, p, n, k1, k2, k3⟩ := h3 v hv
      exact Ty.decoded ty t k hw.2.2.1 hr.2.1 d k1 p n k2 v k3
    · refine Fields.decoded f s hw.2.2.2 hr.2.2 (by simpa [Fields.codings] using hl) ?_
      intro i c hc
      have := h (i + 1) c (by simpa [Fields.codings] using hc)
      simpa using this
end

end Verif
