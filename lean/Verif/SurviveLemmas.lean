/-
Lemmas for C107.
-/
import Verif.PropsMeaning
import Verif.PropsExact

namespace Verif
open Spec Props

/-! ### IEs can be told apart -/

theorem pair_inj {x y : Nat} (hx : x ≤ 65535) (hy : y ≤ 65535) (h1 : octet (x / 256) = octet (y / 256))
    (h2 : octet (x % 256) = octet (y % 256)) : x = y := by
  have h1 := congrArg UInt8.toNat h1
  have h2 := congrArg UInt8.toNat h2
  simp only [octet, UInt8.toNat_ofNat'] at h1 h2
  omega

theorem octets16_inj : ∀ (a b : List Ie), (∀ x ∈ a, Fits16 x) → (∀ x ∈ b, Fits16 x) → octets16 a = octets16 b → a = b := by
  intro a
  induction a with
  | nil =>
    intro b _ _ h
    cases b with
    | nil => rfl
    | cons y b =>
      have := congrArg List.length h
      simp [octets16, ie16_length] at this
      omega
  | cons x a ih =>
    intro b ha hb h
    cases b with
    | nil =>
      have := congrArg List.length h
      simp [octets16, ie16_length] at this
    | cons y b =>
      obtain ⟨t, v⟩ := x
      obtain ⟨u, w⟩ := y
      obtain ⟨f1, f2⟩ := ha (t, v) (by simp)
      obtain ⟨f3, f4⟩ := hb (u, w) (by simp)
      simp only [octets16, List.flatMap_cons, ie16, List.cons_append, List.nil_append, List.cons.injEq] at h f1 f2 f3 f4
      obtain ⟨h1, h2, h3, h4, h5⟩ := h
      have e1 := pair_inj f1 f3 h1 h2
      have e2 := pair_inj f2 f4 h3 h4
      obtain ⟨e3, e4⟩ := List.append_inj h5 e2
      rw [ih b (fun x hx => ha x (by simp [hx])) (fun x hx => hb x (by simp [hx])) e4, e1, e3]

/-! ### Encoding what can be decoded -/

theorem puts_decodable (v : IeVal) (h : Decodable v) : Puts (ieEnc v) (wire v) := by
  rcases h with h | ⟨s, rfl⟩ | ⟨s, rfl⟩
  · exact puts_wire v h
  · exact Puts.name s
  · intro b hb
    simp only [wire, List.length_cons, List.cons_append] at hb
    have e1 : b.num 1 2 = .ok { b with data := b.data ++ [2] } := Puts.put [2] b (by simp; simp at hb; omega)
    show (b.num 1 2).bind (fun b => encName s b) = _
    rw [e1]
    have := Puts.name s { b with data := b.data ++ [2] } (by simp; simp at hb; omega)
    rw [Out.bind_ok]
    refine Eq.trans this ?_
    simp [wire]

mutual
theorem Ty.encodesTo (ty : Ty) (tag : Nat) (kind : Kind) (v : Val IeVal) (hw : ty.Wf) (hg : ValOf Decodable ty v)
    (hl : (valueOctets ty v).length ≤ 65535) : EncodesTo (ty.coding tag kind) v (valueOctets ty v) := by
  match ty, v with
  | .ie k, .node s => simp [ValOf] at hg
  | .group f, .leaf v => simp [ValOf] at hg
  | .ie k, .leaf v =>
    simp only [ValOf] at hg
    obtain ⟨rfl, hr⟩ := hg
    refine ⟨_, rfl, ?_⟩
    intro b hb
    have := puts_decodable v hr b (by simpa [valueOctets] using hb)
    simpa [valueOctets] using this
  | .group f, .node s =>
    simp only [ValOf] at hg
    simp only [valueOctets] at hl ⊢
    simp only [Ty.Wf] at hw
    obtain ⟨h1, h2⟩ := Fields.encodesTo f s hw.1 hg hl
    obtain ⟨h3, h4⟩ := octets16_eq (ieList f s) h2
    rw [structOctets_eq]
    refine ⟨_, rfl, ?_⟩
    rw [← h3]
    exact gtlvsEncode_eq t16l16v_lawful (h1.mono (fun _ _ _ x => x) (fun _ _ x => x.fits)) h4 (fun _ _ => dom16_zero)
theorem Fields.encodesTo (f : Fields) (s : Struct IeVal) (hw : f.Wf) (hg : StructOf Decodable f s)
    (hl : (structOctets f s).length ≤ 65535) :
    Encodes EncodesTo Kind.obeys f.codings s ((ieList f s).map asIe) ∧ ∀ x ∈ ieList f s, Fits16 x := by
  match f, s with
  | .nil, [] => exact ⟨by simpa [Fields.codings, ieList] using Encodes.nil, by simp [ieList]⟩
  | .nil, _ :: _ => simp [StructOf] at hg
  | .cons _ _ _ _, [] => simp [StructOf] at hg
  | .cons t k ty f, vs :: s =>
    simp only [StructOf] at hg
    simp only [Fields.Wf] at hw
    obtain ⟨⟨g1, g2⟩, g3, g4⟩ := hg
    obtain ⟨w1, w2, w3, w4⟩ := hw
    have hle := hl
    rw [structOctets_eq] at hle
    simp only [structOctets, List.length_append] at hl
    obtain ⟨i1, i2⟩ := Fields.encodesTo f s w4 g4 (by omega)
    have hv : ∀ v ∈ vs, (valueOctets ty v).length ≤ 65535 := by
      intro v hv
      have : (t, valueOctets ty v) ∈ ieList (.cons t k ty f) (vs :: s) := by
        simp only [ieList, List.mem_append, List.mem_map]
        exact .inl ⟨v, hv, rfl⟩
      have := octets16_mem_le this
      simp only at this
      omega
    refine ⟨?_, ?_⟩
    · simp only [Fields.codings, ieList, List.map_append, List.map_map]
      have e : (List.map (asIe ∘ fun v => (t, valueOctets ty v)) vs) =
          (vs.map (valueOctets ty)).map fun bs => ((ty.coding t k).ti, bs) := by
        simp [(Ty.coding_ti t k ty).1, asIe]
      rw [e]
      refine .cons ?_ (all2_map ?_) i1
      · rw [(Ty.coding_ti t k ty).2]
        cases k <;> simp [least, most, Kind.obeys] at g1 g2 ⊢ <;> omega
      · intro v hvv
        exact Ty.encodesTo ty t k v w3 (g3 v hvv) (hv v hvv)
    · intro x hx
      simp only [ieList, List.mem_append, List.mem_map] at hx
      rcases hx with ⟨v, hvv, rfl⟩ | hx
      · exact ⟨w1, hv v hvv⟩
      · exact i2 x hx
end

/-- A struct that can be decoded is encoded to its octets. -/
theorem Fields.puts (f : Fields) (s : Struct IeVal) (hw : f.Wf) (hg : StructOf Decodable f s)
    (hl : (structOctets f s).length ≤ 65535) : Appends (fun b => gtlvsEncode t16l16v s b (some f.codings)) (structOctets f s) := by
  obtain ⟨h1, h2⟩ := Fields.encodesTo f s hw hg hl
  obtain ⟨h3, h4⟩ := octets16_eq (ieList f s) h2
  rw [structOctets_eq, ← h3]
  exact gtlvsEncode_eq t16l16v_lawful (h1.mono (fun _ _ _ x => x) (fun _ _ x => x.fits)) h4 (fun _ _ => dom16_zero)

/-! ### The IEs of each member -/

/-- The IEs with the tag of a member are those of its values. -/
def Dealt : Fields → List Ie → Struct IeVal → Prop
  | .cons iei _ ty f, l, vs :: s => ((l.filter fun x => x.1 = iei).map fun x => x.2) = vs.map (valueOctets ty) ∧ Dealt f l s
  | _, _, _ => True

theorem ieList_tags (f : Fields) (s : Struct IeVal) : ∀ x ∈ ieList f s, x.1 ∈ f.tags := by
  match f, s with
  | .nil, _ => intro x hx; simp [ieList] at hx
  | .cons _ _ _ _, [] => intro x hx; simp [ieList] at hx
  | .cons t k ty f, vs :: s =>
    intro x hx
    simp only [ieList, List.mem_append, List.mem_map, Fields.tags, List.mem_cons] at hx ⊢
    rcases hx with ⟨v, _, rfl⟩ | hx
    · exact .inl rfl
    · exact .inr (ieList_tags f s x hx)

theorem filter_none {l : List Ie} {t : Nat} (h : ∀ x ∈ l, x.1 ≠ t) : (l.filter fun x => x.1 = t) = [] := by
  rw [List.filter_eq_nil_iff]
  intro x hx
  simpa using h x hx

theorem dealt (f : Fields) (s : Struct IeVal) (hw : f.Wf) (pre : List Ie) (hp : ∀ x ∈ pre, x.1 ∉ f.tags) :
    Dealt f (pre ++ ieList f s) s := by
  match f, s with
  | .nil, _ => trivial
  | .cons _ _ _ _, [] => trivial
  | .cons t k ty f, vs :: s =>
    simp only [Fields.Wf] at hw
    obtain ⟨w1, w2, w3, w4⟩ := hw
    refine ⟨?_, ?_⟩
    · simp only [ieList, List.filter_append]
      rw [filter_none (l := pre), filter_none (l := ieList f s)]
      · simp only [List.nil_append, List.append_nil]
        rw [List.filter_eq_self.2]
        · simp [List.map_map, Function.comp_def]
        · intro x hx
          obtain ⟨v, _, rfl⟩ := List.mem_map.1 hx
          simp
      · intro x hx e
        exact w2 (e ▸ ieList_tags f s x hx)
      · intro x hx e
        exact hp x hx (by simp [Fields.tags, e])
    · have := dealt f s w4 (pre ++ vs.map fun v => (t, valueOctets ty v)) (by
        intro x hx
        rcases List.mem_append.1 hx with hx | hx
        · intro h; exact hp x hx (by simp [Fields.tags, h])
        · obtain ⟨v, _, rfl⟩ := List.mem_map.1 hx
          exact w2)
      simpa only [ieList, List.append_assoc] using this

/-! ### What the octets of a value mean -/

theorem wire_means (v : IeVal) (h : Decodable v) : IeMeans v.kind (wire v) v ↔ Carried v := by
  have hr : (0 : UInt8) ∈ [(0 : UInt8)] := by simp
  have h1 := C94_survives v (max 300 (wire v).length) (by omega) [0] hr
  rw [← h1, ← ieDec_iff v.kind (wire v) [0] hr]
  have e := puts_decodable v h ⟨max 300 (wire v).length, []⟩ (by simp; omega)
  simp only [List.nil_append] at e
  constructor
  · intro hd
    exact ⟨_, e, hd⟩
  · rintro ⟨b, hb, hd⟩
    have e : ieEnc v ⟨max 300 (wire v).length, []⟩ = _ := e
    rw [e] at hb
    simp only [Out.ok.injEq] at hb
    subst hb
    exact hd

theorem Spec.Carried.decodable {v : IeVal} (h : Carried v) : Decodable v := by
  unfold Carried at h
  split at h
  · exact .inr (.inl ⟨_, rfl⟩)
  · exact .inr (.inr ⟨_, rfl⟩)
  · exact .inl h

theorem all2_map_left {α β γ} {R : β → γ → Prop} (g : α → β) (l : List α) (m : List γ) :
    All2 R (l.map g) m ↔ All2 (fun a c => R (g a) c) l m := by
  induction l generalizing m with
  | nil => constructor <;> (intro h; cases h; exact .nil)
  | cons a l ih =>
    constructor
    · intro h
      cases h with
      | cons h1 h2 => exact .cons h1 ((ih _).1 h2)
    · intro h
      cases h with
      | cons h1 h2 => exact .cons h1 ((ih _).2 h2)

theorem all2_self {α} {R : α → α → Prop} (l : List α) : All2 R l l ↔ ∀ a ∈ l, R a a := by
  induction l with
  | nil => exact ⟨fun _ => nofun, fun _ => .nil⟩
  | cons a l ih =>
    constructor
    · intro h
      cases h with
      | cons h1 h2 =>
        intro x hx
        rcases List.mem_cons.1 hx with rfl | hx
        · exact h1
        · exact ih.1 h2 x hx
    · intro h
      exact .cons (h a (by simp)) (ih.2 fun x hx => h x (by simp [hx]))

mutual
theorem Ty.survives (ty : Ty) (v : Val IeVal) (hw : ty.Wf) (hg : ValOf Decodable ty v) (hl : (valueOctets ty v).length ≤ 65535) :
    ValueMeans ty (valueOctets ty v) v ↔ ValOf Carried ty v := by
  match ty, v with
  | .ie k, .node s => simp [ValOf] at hg
  | .group f, .leaf v => simp [ValOf] at hg
  | .ie k, .leaf v =>
    simp only [ValOf] at hg ⊢
    obtain ⟨rfl, hr⟩ := hg
    simp only [valueOctets, ValueMeans, true_and]
    exact wire_means v hr
  | .group f, .node s =>
    simp only [ValOf] at hg
    simp only [valueOctets] at hl
    simp only [Ty.Wf] at hw
    have hfit := (Fields.encodesTo f s hw.1 hg hl).2
    have := Fields.survives f s (ieList f s) hw.1 hg hl (by
      have := dealt f s hw.1 [] (by simp)
      simpa using this)
    simp only [valueOctets, ValueMeans, ValOf, ← this]
    constructor
    · rintro ⟨ies, h1, h2, h3⟩
      rw [structOctets_eq] at h2
      rw [octets16_inj _ _ hfit h1 h2]
      exact h3
    · intro h
      exact ⟨_, hfit, structOctets_eq f s, h⟩
theorem Fields.survives (f : Fields) (s : Struct IeVal) (l : List Ie) (hw : f.Wf) (hg : StructOf Decodable f s)
    (hl : (structOctets f s).length ≤ 65535) (hd : Dealt f l s) : IesMean f l s ↔ StructOf Carried f s := by
  match f, s with
  | .nil, [] => simp [IesMean, StructOf]
  | .nil, _ :: _ => simp [StructOf] at hg
  | .cons _ _ _ _, [] => simp [StructOf] at hg
  | .cons t k ty f, vs :: s =>
    simp only [StructOf] at hg
    simp only [Fields.Wf] at hw
    obtain ⟨hc, g3, g4⟩ := hg
    obtain ⟨w1, w2, w3, w4⟩ := hw
    obtain ⟨d1, d2⟩ := hd
    have hle := hl
    rw [structOctets_eq] at hle
    simp only [structOctets, List.length_append] at hl
    have hv : ∀ v ∈ vs, (valueOctets ty v).length ≤ 65535 := by
      intro v hv
      have : (t, valueOctets ty v) ∈ ieList (.cons t k ty f) (vs :: s) := by
        simp only [ieList, List.mem_append, List.mem_map]
        exact .inl ⟨v, hv, rfl⟩
      have := octets16_mem_le this
      simp only at this
      omega
    have ih := Fields.survives f s l w4 g4 (by omega) d2
    simp only [IesMean, StructOf, d1, ih, all2_map_left, all2_self]
    refine and_congr_right fun _ => and_congr_left fun _ => ?_
    constructor
    · intro h v hvv
      exact (Ty.survives ty v w3 (g3 v hvv) (hv v hvv)).1 (h v hvv)
    · intro h v hvv
      exact (Ty.survives ty v w3 (g3 v hvv) (hv v hvv)).2 (h v hvv)
end

mutual
theorem valMono {P Q : IeVal → Prop} (h : ∀ v, P v → Q v) (ty : Ty) (v : Val IeVal) (hv : ValOf P ty v) : ValOf Q ty v := by
  match ty, v with
  | .ie _, .node _ => simp [ValOf] at hv
  | .group _, .leaf _ => simp [ValOf] at hv
  | .ie _, .leaf v =>
    simp only [ValOf] at hv ⊢
    exact ⟨hv.1, h v hv.2⟩
  | .group f, .node s =>
    simp only [ValOf] at hv ⊢
    exact structMono h f s hv
theorem structMono {P Q : IeVal → Prop} (h : ∀ v, P v → Q v) (f : Fields) (s : Struct IeVal) (hs : StructOf P f s) : StructOf Q f s := by
  match f, s with
  | .nil, [] => simp [StructOf]
  | .nil, _ :: _ => simp [StructOf] at hs
  | .cons _ _ _ _, [] => simp [StructOf] at hs
  | .cons _ _ ty f, _ :: s =>
    simp only [StructOf] at hs ⊢
    exact ⟨hs.1, fun v hv => valMono h ty v (hs.2.1 v hv), structMono h f s hs.2.2⟩
end

end Verif
