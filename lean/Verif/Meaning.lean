/-
Lemmas: decoding yields what the octets mean.
-/
import Verif.SpecMeaning
import Verif.RxLemmas
import Verif.PropsReads

namespace Verif
open Spec Props

/-! ### Names -/

/-- Any octets are labels up to the end, labels up to a zero octet, or have a label that is longer than what is left. -/
theorem labels_cases (n : Nat) : ∀ o : List UInt8, o.length = n →
    ∃ ls : List (List UInt8), (∀ l ∈ ls, l ≠ [] ∧ l.length ≤ 255) ∧
      (o = labelOctets ls ∨ (∃ x, o = labelOctets ls ++ 0 :: x) ∨
        ∃ c x, o = labelOctets ls ++ c :: x ∧ c ≠ 0 ∧ x.length < c.toNat) := by
  induction n using Nat.strongRecOn with
  | _ n ih =>
    intro o ho
    cases o with
    | nil => exact ⟨[], by simp, .inl rfl⟩
    | cons c x =>
      by_cases hc : c = 0
      · exact ⟨[], by simp, .inr (.inl ⟨x, by rw [hc]; rfl⟩)⟩
      · by_cases hx : x.length < c.toNat
        · exact ⟨[], by simp, .inr (.inr ⟨c, x, rfl, hc, hx⟩)⟩
        · have hpos : 0 < c.toNat := by
            rcases Nat.eq_zero_or_pos c.toNat with h | h
            · exact absurd (UInt8.toNat_inj.1 (by simpa using h)) hc
            · exact h
          have hlt : c.toNat < 256 := c.toNat_lt
          obtain ⟨ls, h1, h2⟩ := ih (x.drop c.toNat).length (by simp at ho ⊢; omega) _ rfl
          have e : ∀ y, x.drop c.toNat = y → c :: x = octet c.toNat :: x.take c.toNat ++ y := by
            intro y hy
            rw [← hy, List.cons_append, List.take_append_drop]
            simp [octet]
          have hl : (x.take c.toNat).length = c.toNat := by simp; omega
          refine ⟨x.take c.toNat :: ls, ?_, ?_⟩
          · intro l hm
            rcases List.mem_cons.1 hm with h | h
            · rw [h]
              refine ⟨fun h0 => ?_, by omega⟩
              rw [h0] at hl; simp at hl; omega
            · exact h1 l h
          · have e2 : labelOctets (x.take c.toNat :: ls) = octet c.toNat :: x.take c.toNat ++ labelOctets ls := by
              simp [labelOctets, hl]
            rw [e2]
            rcases h2 with h2 | ⟨y, h2⟩ | ⟨d, y, h2, h3, h4⟩
            · exact .inl (e _ h2)
            · exact .inr (.inl ⟨y, by rw [e _ h2, List.append_assoc]⟩)
            · exact .inr (.inr ⟨d, y, by rw [e _ h2, List.append_assoc], h3, h4⟩)

theorem dotted_length (ls : List (List UInt8)) (h : ls ≠ []) : (dotted ls).length + 1 = (labelOctets ls).length := by
  induction ls with
  | nil => exact absurd rfl h
  | cons l ls ih =>
    cases ls with
    | nil => simp [dotted, labelOctets]
    | cons l2 ls =>
      have := ih (by simp)
      simp only [dotted, labelOctets, List.flatMap_cons, List.length_append, List.length_cons] at this ⊢
      omega

theorem flatMap_dot_length (ls : List (List UInt8)) : (ls.flatMap fun l => l ++ [46]).length = (labelOctets ls).length := by
  induction ls with
  | nil => rfl
  | cons l ls ih =>
    simp only [labelOctets, List.flatMap_cons, List.length_append, List.length_cons, List.length_nil] at ih ⊢
    omega

/-- The outcomes of decoding a name. -/
theorem decName_cases (o rest : List UInt8) :
    (∃ s, decName (curAt o rest) = .ok s ∧ NameMeans o s) ∨
    ((∃ e, decName (curAt o rest) = .err e) ∧ ∀ s, ¬ NameMeans o s) := by
  have hd : decName (curAt o rest) = if o.length < 1 ∨ 254 < o.length then .err .ERANGE
      else (apnToStr (o ++ rest) o.length).bind fun s => if 254 < s.length + 1 then .ub else .ok (cstr s) := rfl
  rw [hd]
  by_cases hr : o.length < 1 ∨ 254 < o.length
  · exact .inr ⟨⟨_, if_pos hr⟩, fun s h => by have := h.1; omega⟩
  · rw [if_neg hr, (apnToStr_append o.length o rest rfl).1]
    obtain ⟨ls, h1, h2⟩ := labels_cases _ o rfl
    rcases h2 with h2 | ⟨x, h2⟩ | ⟨c, x, h2, h3, h4⟩
    · have e : apnToStr o o.length = .ok (dotted ls) := by
        have := apnToStr_labels ls (fun l hl => ⟨(h1 l hl).1, by have := (h1 l hl).2; omega⟩) []
        rw [List.append_nil, ← h2] at this; exact this
      have hne : ls ≠ [] := by rintro rfl; rw [h2] at hr; simp [labelOctets] at hr
      have hl := dotted_length ls hne
      rw [← h2] at hl
      refine .inl ⟨cText (dotted ls), ?_, by omega, ls, h1, .inl ⟨h2, rfl⟩⟩
      rw [e, Res.bind_ok', if_neg (by omega)]; rfl
    · have e : apnToStr o o.length = .ok (ls.flatMap fun l => l ++ [46]) := by
        have := apn_terminated ls h1 x
        rw [← h2] at this; exact this
      have hl := flatMap_dot_length ls
      have hl2 : o.length = (labelOctets ls).length + (x.length + 1) := by rw [h2]; simp
      refine .inl ⟨cText (ls.flatMap fun l => l ++ [46]), ?_, by omega, ls, h1, .inr ⟨⟨x, h2⟩, rfl⟩⟩
      rw [e, Res.bind_ok', if_neg (by omega)]; rfl
    · have e : apnToStr o o.length = .err .EINVAL := by
        have := apn_overrun ls h1 c x h3 h4
        rw [← h2] at this; exact this
      refine .inr ⟨⟨.EINVAL, by rw [e]; rfl⟩, ?_⟩
      rintro s ⟨_, ls', g1, g2⟩
      rcases g2 with ⟨g2, _⟩ | ⟨⟨y, g2⟩, _⟩
      · have := apnToStr_labels ls' (fun l hl => ⟨(g1 l hl).1, by have := (g1 l hl).2; omega⟩) []
        rw [List.append_nil, ← g2, e] at this
        cases this
      · have := apn_terminated ls' g1 y
        rw [← g2, e] at this
        cases this

/-- A name has one meaning. -/
theorem NameMeans.unique {o s s' : List UInt8} (h : NameMeans o s) (h' : NameMeans o s') : s = s' := by
  have key : ∀ s, NameMeans o s → ∃ t, apnToStr o o.length = .ok t ∧ s = cText t := by
    rintro s ⟨_, ls, g1, g2⟩
    rcases g2 with ⟨g2, g3⟩ | ⟨⟨y, g2⟩, g3⟩
    · have := apnToStr_labels ls (fun l hl => ⟨(g1 l hl).1, by have := (g1 l hl).2; omega⟩) []
      rw [List.append_nil, ← g2] at this
      exact ⟨_, this, g3⟩
    · have := apn_terminated ls g1 y
      rw [← g2] at this
      exact ⟨_, this, g3⟩
  obtain ⟨t, h1, h2⟩ := key s h
  obtain ⟨t', h1', h2'⟩ := key s' h'
  rw [h1] at h1'
  cases h1'
  rw [h2, h2']

theorem decName_iff (o rest s : List UInt8) : decName (curAt o rest) = .ok s ↔ NameMeans o s := by
  rcases decName_cases o rest with ⟨t, h1, h2⟩ | ⟨⟨e, h1⟩, h2⟩
  · rw [h1]
    constructor
    · intro h; cases h; exact h2
    · intro h; rw [NameMeans.unique h h2]
  · rw [h1]
    exact ⟨fun h => (by cases h), fun h => absurd h (h2 s)⟩

/-! ### IEs -/

theorem ieDec_iff (k : IeKind) (o rest : List UInt8) (hz : (0 : UInt8) ∈ rest) (v : IeVal) :
    ieDec k (o ++ rest) o.length = .ok v ↔ IeMeans k o v := by
  by_cases hn : k = .networkInst
  · subst hn
    have e : ieDec .networkInst (o ++ rest) o.length = (decName (curAt o rest)).bind fun s => .ok (.networkInst s) := rfl
    rw [e, Res.bind_eq_ok_iff]
    constructor
    · rintro ⟨s, h1, h2⟩
      cases h2
      exact .inl ⟨rfl, s, (decName_iff o rest s).1 h1, rfl⟩
    · rintro (⟨_, s, h1, h2⟩ | ⟨h, _⟩ | ⟨h, _⟩)
      · exact ⟨s, (decName_iff o rest s).2 h1, by rw [h2]⟩
      · cases h
      · exact absurd rfl h
  · by_cases hf : k = .nodeId ∧ o[0]? = some 2
    · obtain ⟨rfl, h2⟩ := hf
      cases o with
      | nil => simp at h2
      | cons c o =>
        simp only [List.getElem?_cons_zero, Option.some.injEq] at h2
        subst h2
        have e : ieDec .nodeId (2 :: o ++ rest) (2 :: o).length =
            (decName (curAt o rest)).bind fun s => .ok (.nodeId (.fqdn s)) := by
          have h1 := num1_cons 2 o rest
          show (decNodeId (curAt (2 :: o) rest)).bind _ = _
          unfold decNodeId
          rw [h1, Res.bind_ok']
          simp only [show (2 : UInt8).toNat = 2 from rfl]
          cases decName (curAt o rest) <;> rfl
        rw [e, Res.bind_eq_ok_iff]
        constructor
        · rintro ⟨s, h1, h2⟩
          cases h2
          exact .inr (.inl ⟨rfl, rfl, s, (decName_iff o rest s).1 h1, rfl⟩)
        · rintro (⟨h, _⟩ | ⟨_, _, s, h1, h2⟩ | ⟨_, h, _⟩)
          · cases h
          · exact ⟨s, (decName_iff o rest s).2 h1, by rw [h2]⟩
          · exact absurd rfl (h rfl)
    · have hf' : k = .nodeId → o[0]? ≠ some 2 := fun a b => hf ⟨a, b⟩
      rw [C75_decoders k o rest hn hf' (fun _ => List.mem_append_right _ hz)]
      constructor
      · intro h
        refine .inr (.inr ⟨hn, hf', ?_⟩)
        cases hr : readIe k o with
        | none => rw [hr] at h; cases h
        | some w => rw [hr] at h; cases h; rfl
      · rintro (⟨h, _⟩ | ⟨h1, h2, _⟩ | ⟨_, _, h⟩)
        · exact absurd h hn
        · exact absurd ⟨h1, h2⟩ hf
        · rw [h]; rfl

/-! ### IEs with a zero octet behind each -/

variable {A : Type}

/-- The same entry, with a decoder that sees a zero octet behind the IE, whatever there is. -/
def Coding.padded (c : Coding A) : Coding A :=
  { c with dec := c.dec.map fun d p n => d (p.take n ++ [0]) n }

theorem findSlot_padded (ti : TagInst) (cs : List (Coding A)) : ∀ (ss : Struct A) (idx m : Nat),
    findSlot ti (cs.map Coding.padded) ss idx m = findSlot ti cs ss idx m := by
  induction cs with
  | nil => intro ss idx m; rfl
  | cons c cs ih =>
    intro ss idx m
    cases ss with
    | nil => rfl
    | cons s ss =>
      simp only [List.map_cons, findSlot, ih]
      rfl

theorem decodeOne_padded (cs : List (Coding A)) (slots : Struct A) (ti : TagInst) (p : List UInt8) (n : Nat)
    (h : ∀ c ∈ cs, ∀ d, c.dec = some d → d (p.take n ++ [0]) n = d p n) :
    decodeOne (cs.map Coding.padded) slots ti p n = decodeOne cs slots ti p n := by
  unfold decodeOne
  rw [findSlot_padded]
  cases findSlot ti cs slots 0 0 with
  | slot idx =>
    simp only [List.getElem?_map]
    cases hc : cs[idx]? with
    | none => rfl
    | some c =>
      cases hs : slots[idx]? with
      | none => rfl
      | some s =>
        simp only [Option.map_some, Coding.padded]
        cases hd : c.dec with
        | none => rfl
        | some d => simp only [Option.map_some]; rw [h c (List.mem_of_getElem? hc) d hd]
  | full => rfl
  | tooMany => rfl

theorem decodeMany_padded (cs : List (Coding A)) (es : List Ev)
    (h : ∀ e ∈ es, ∀ c ∈ cs, ∀ d, c.dec = some d → d (e.2.1.take e.2.2 ++ [0]) e.2.2 = d e.2.1 e.2.2) :
    ∀ slots, decodeMany (cs.map Coding.padded) es slots = decodeMany cs es slots := by
  induction es with
  | nil => intro _; rfl
  | cons e es ih =>
    intro slots
    obtain ⟨ti, p, n⟩ := e
    simp only [decodeMany]
    rw [decodeOne_padded cs slots ti p n (h (ti, p, n) (by simp))]
    congr 1
    funext s
    exact ih (fun e he => h e (by simp [he])) s

theorem checkMandatory_padded (cs : List (Coding A)) : ∀ (ss : Struct A) (idx : Nat),
    checkMandatory (cs.map Coding.padded) ss idx = checkMandatory cs ss idx := by
  induction cs with
  | nil => intro ss idx; rfl
  | cons c cs ih =>
    intro ss idx
    cases ss with
    | nil => rfl
    | cons s ss =>
      simp only [List.map_cons, checkMandatory]
      rw [ih]; rfl

theorem decodeUnordered_padded (table : List (Coding A)) (ies : List Ie) (hfit : ∀ x ∈ ies, Fits16 x) (rest : List UInt8)
    (hz : (0 : UInt8) ∈ rest) (hl : ∀ c ∈ table, c.LocalWhen fun r => (0 : UInt8) ∈ r) :
    gtlvsDecode (fresh t16l16v (octets16 ies ++ rest) (octets16 ies).length) false (some table) =
      gtlvsDecode (fresh t16l16v (octets16 ies ++ rest) (octets16 ies).length) false (some (table.map Coding.padded)) := by
  obtain ⟨e1, e2⟩ := Width.octets_eq .w16 ies hfit
  obtain ⟨es, h1, h0, h2⟩ := decodeUnordered_of_tlvs (Width.lawful .w16) table (ies.map asIe) e2 rest
  obtain ⟨es', h1', h2'⟩ := decodeUnordered_on_ies .w16 (table.map Coding.padded) ies hfit rest
  have hloc : ∀ c ∈ table.map Coding.padded, LooksOnlyAtIe c := by
    intro c hc
    obtain ⟨c, _, rfl⟩ := List.mem_map.1 hc
    intro d hd v rest
    simp only [Coding.padded, Option.map_eq_some_iff] at hd
    obtain ⟨d0, _, rfl⟩ := hd
    simp
  rw [e1] at h2
  show decodeUnordered table _ = _
  rw [show fresh t16l16v (octets16 ies ++ rest) (octets16 ies).length =
    { cfg := Width.cfg .w16, mem := Width.octets .w16 ies ++ rest, srcLen := (Width.octets .w16 ies).length } from rfl, h2]
  refine Eq.trans ?_ h2'.symm
  rw [decodeMany_local hloc h1', ← decodeMany_local hloc h1, decodeMany_padded]
  · simp only [checkMandatory_padded]
    congr 2
    simp [emptyStruct]
  · intro e he c hc d hd
    obtain ⟨x, hx⟩ := h0 e he
    have hn := h1.2 e he
    have := hl c hc d hd (e.2.1.take e.2.2) [0] (x ++ rest) (by simp) (List.mem_append_right _ hz)
    rw [← hx, List.take_append_drop, List.length_take, Nat.min_eq_left hn] at this
    exact this

/-- What unordered decoding yields, if there is a zero octet behind the IEs. -/
theorem decodeUnordered_iff (table : List (Coding A)) (ies : List Ie) (hfit : ∀ x ∈ ies, Fits16 x) (rest : List UInt8)
    (hz : (0 : UInt8) ∈ rest) (hl : ∀ c ∈ table, c.LocalWhen fun r => (0 : UInt8) ∈ r) (hsm : SmallTable table)
    (hdt : DistinctTags table) (hroom : ∀ c ∈ table, most c.kind ≠ 0) (s : Struct A) :
    gtlvsDecode (fresh t16l16v (octets16 ies ++ rest) (octets16 ies).length) false (some table) = .ok s ↔
      Obeys table s ∧ ∀ (i : Nat) c vs, table[i]? = some c → s[i]? = some vs →
        All2 (Decodes c.padded) ((withTag c.ti ies).map fun x => x.2) vs := by
  have hloc : ∀ c ∈ table.map Coding.padded, LooksOnlyAtIe c := by
    intro c hc
    obtain ⟨c, _, rfl⟩ := List.mem_map.1 hc
    intro d hd v rest
    simp only [Coding.padded, Option.map_eq_some_iff] at hd
    obtain ⟨d0, _, rfl⟩ := hd
    simp
  rw [decodeUnordered_padded table ies hfit rest hz hl]
  have := C08_unordered_iff .w16 (table.map Coding.padded) ies hfit rest (by simpa [SmallTable] using hsm)
    (by simpa [DistinctTags, Coding.padded, Function.comp_def] using hdt) hloc
    (by intro c hc; obtain ⟨c, h, rfl⟩ := List.mem_map.1 hc; exact hroom c h) s
  refine Iff.trans this ?_
  simp only [Obeys, List.length_map, List.getElem?_map, Option.map_eq_some_iff]
  constructor
  · rintro ⟨⟨h1, h2⟩, h3⟩
    exact ⟨⟨h1, fun i c vs hc hv => h2 i c.padded vs ⟨c, hc, rfl⟩ hv⟩, fun i c vs hc hv => h3 i c.padded vs ⟨c, hc, rfl⟩ hv⟩
  · rintro ⟨⟨h1, h2⟩, h3⟩
    refine ⟨⟨h1, ?_⟩, ?_⟩
    · rintro i _ vs ⟨c, hc, rfl⟩ hv; exact h2 i c vs hc hv
    · rintro i _ vs ⟨c, hc, rfl⟩ hv; exact h3 i c vs hc hv

theorem withTag_eq (iei : Nat) (ies : List Ie) : withTag { tag := iei } ies = ies.filter fun x => x.1 = iei := by
  unfold withTag
  congr 1
  funext x
  simp [tagOf]

theorem all2_iff {α β} {R R' : α → β → Prop} (h : ∀ a b, R a b ↔ R' a b) (l : List α) (l' : List β) :
    All2 R l l' ↔ All2 R' l l' := by
  have : R = R' := by funext a b; exact propext (h a b)
  rw [this]

mutual
theorem Ty.means (ty : Ty) (tag : Nat) (kind : Kind) (hw : ty.Wf) (hr : ty.Room) (o : List UInt8) (v : Val IeVal) :
    Decodes (ty.coding tag kind).padded o v ↔ ValueMeans ty o v := by
  have key : Decodes (ty.coding tag kind).padded o v ↔
      ∃ d, (ty.coding tag kind).dec = some d ∧ d (o ++ [0]) o.length = .ok v := by
    simp only [Decodes, Coding.padded, Option.map_eq_some_iff]
    constructor
    · rintro ⟨_, ⟨d, h1, rfl⟩, h2⟩
      exact ⟨d, h1, by simpa using h2⟩
    · rintro ⟨d, h1, h2⟩
      exact ⟨_, ⟨d, h1, rfl⟩, by simpa using h2⟩
  rw [key]
  match ty with
  | .ie k =>
    simp only [Ty.coding, ieCoding, leafCoding, Option.some.injEq, exists_eq_left', Res.bind_eq_ok_iff, Res.ok.injEq]
    constructor
    · rintro ⟨a, h1, rfl⟩
      exact (ieDec_iff k o [0] (by simp) a).1 h1
    · intro h
      cases v with
      | leaf a => exact ⟨a, (ieDec_iff k o [0] (by simp) a).2 h, rfl⟩
      | node s => exact h.elim
  | .group f =>
    simp only [Ty.Wf] at hw
    simp only [Ty.Room] at hr
    simp only [Ty.coding, nestedCoding, Option.some.injEq, exists_eq_left', Res.bind_eq_ok_iff, Res.ok.injEq]
    constructor
    · rintro ⟨s, h1, rfl⟩
      exact (Fields.means_octets f hw hr o [0] (by simp) s).1 h1
    · intro h
      cases v with
      | leaf a => exact h.elim
      | node s => exact ⟨s, (Fields.means_octets f hw hr o [0] (by simp) s).2 h, rfl⟩
theorem Fields.means (f : Fields) (hw : f.Wf) (hr : f.Room) (ies : List Ie) (s : Struct IeVal) :
    (Obeys f.codings s ∧ ∀ (i : Nat) c vs, f.codings[i]? = some c → s[i]? = some vs →
        All2 (Decodes c.padded) ((withTag c.ti ies).map fun x => x.2) vs) ↔ IesMean f ies s := by
  match f, s with
  | .nil, [] => simp [IesMean, Fields.codings, Obeys]
  | .nil, _ :: _ => simp [IesMean, Fields.codings, Obeys]
  | .cons _ _ _ _, [] => simp [IesMean, Fields.codings, Obeys]
  | .cons t k ty f, vs :: s =>
    simp only [Fields.Wf] at hw
    simp only [Fields.Room] at hr
    have ih := Fields.means f hw.2.2.2 hr.2.2 ies s
    simp only [IesMean, ← ih]
    have e1 := (Ty.coding_ti t k ty).1
    have e2 := (Ty.coding_ti t k ty).2
    have h0 : All2 (ValueMeans ty) ((ies.filter fun x => x.1 = t).map fun x => x.2) vs ↔
        All2 (Decodes (ty.coding t k).padded) ((withTag (ty.coding t k).ti ies).map fun x => x.2) vs := by
      rw [e1, withTag_eq]
      exact all2_iff (fun a b => (Ty.means ty t k hw.2.2.1 hr.2.1 a b).symm) _ _
    rw [h0]
    simp only [Obeys, Fields.codings, List.length_cons]
    constructor
    · rintro ⟨⟨h1, h2⟩, h3⟩
      refine ⟨?_, ?_, ⟨by omega, ?_⟩, ?_⟩
      · have := h2 0 _ _ rfl rfl; rwa [e2] at this
      · exact h3 0 _ _ rfl rfl
      · intro i c w hc hv; exact h2 (i + 1) c w (by simpa using hc) (by simpa using hv)
      · intro i c w hc hv; exact h3 (i + 1) c w (by simpa using hc) (by simpa using hv)
    · rintro ⟨h1, h2, ⟨h3, h4⟩, h5⟩
      refine ⟨⟨by omega, ?_⟩, ?_⟩
      · intro i c w hc hv
        cases i with
        | zero => cases hc; cases hv; rw [e2]; exact h1
        | succ i => exact h4 i c w (by simpa using hc) (by simpa using hv)
      · intro i c w hc hv
        cases i with
        | zero => cases hc; cases hv; exact h2
        | succ i => exact h5 i c w (by simpa using hc) (by simpa using hv)
theorem Fields.means_octets (f : Fields) (hw : f.Wf ∧ f.tags.length ≤ 4096) (hr : f.Room) (o rest : List UInt8)
    (hz : (0 : UInt8) ∈ rest) (s : Struct IeVal) :
    gtlvsDecode { cfg := t16l16v, mem := o ++ rest, srcLen := o.length } false (some f.codings) = .ok s ↔
      ∃ ies : List Ie, (∀ x ∈ ies, Fits16 x) ∧ o = octets16 ies ∧ IesMean f ies s := by
  have key : ∀ ies : List Ie, (∀ x ∈ ies, Fits16 x) → o = octets16 ies →
      (gtlvsDecode { cfg := t16l16v, mem := o ++ rest, srcLen := o.length } false (some f.codings) = .ok s ↔
        IesMean f ies s) := by
    intro ies h1 h2
    subst h2
    refine Iff.trans (decodeUnordered_iff f.codings ies h1 rest hz (fun c hc => (f.localWhen c hc).1) ?_ hw.1.nodup' ?_ s)
      (Fields.means f hw.1 hr ies s)
    · rw [SmallTable, f.codings_length]; exact hw.2
    · intro c hc; rw [most_eq]; exact hr.cap c hc
  constructor
  · intro h
    obtain ⟨ies, h1, h2, _⟩ := C08_unordered_success .w16 f.codings (o ++ rest) o.length (by simp) s h
    have h2' : o = octets16 ies := by rw [List.take_left] at h2; exact h2
    exact ⟨ies, h1, h2', (key ies h1 h2').1 h⟩
  · rintro ⟨ies, h1, h2, h3⟩
    exact (key ies h1 h2).2 h3
end

end Verif
