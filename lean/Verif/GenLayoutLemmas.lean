/-
Generated tables fit generated structs.
-/
import Verif.SpecGenLayout
import Verif.PropsGen

namespace Verif
open Spec

theorem compileH_nodup : ∀ {ss env env'}, compileH ss env = some env' →
    (∀ s ∈ env, (s.members.flatMap CMemb.names).Nodup) → ∀ s ∈ env', (s.members.flatMap CMemb.names).Nodup
  | [], env, env', h, he => by cases h; exact he
  | s :: ss, env, env', h, he => by
    rw [compileH] at h
    split at h
    · cases h
    · rename_i hn
      simp only [Bool.or_eq_true, not_or, Bool.not_eq_true', decide_eq_false_iff_not, Classical.not_not] at hn
      refine compileH_nodup h ?_
      intro x hx
      rcases List.mem_cons.1 hx with hx' | hx'
      · rw [hx']; exact hn.2
      · exact he x hx'

theorem membersOf_mem {env : List CStruct} {t ms} (h : membersOf env t = some ms) : (⟨t, ms⟩ : CStruct) ∈ env := by
  unfold membersOf at h
  cases hf : env.find? (fun s => s.type = t) with
  | none => rw [hf] at h; cases h
  | some x =>
    rw [hf] at h
    have h1 := List.find?_some hf
    simp at h1 h
    have := List.mem_of_find?_eq_some hf
    rw [← h1, ← h]
    exact this

theorem CMemb.name_mem (m : CMemb) : m.name ∈ m.names := by simp [CMemb.names]

theorem find_memb : ∀ {ms : List CMemb} {m}, (ms.flatMap CMemb.names).Nodup → m ∈ ms →
    ms.find? (fun x => x.name = m.name) = some m
  | [], _, _, h => by cases h
  | x :: ms, m, hn, h => by
    rw [List.flatMap_cons, List.nodup_append] at hn
    rw [List.find?_cons]
    rcases List.mem_cons.1 h with h' | h'
    · rw [h']; simp
    · have : x.name ≠ m.name := fun e => hn.2.2 x.name x.name_mem m.name (List.mem_flatMap.2 ⟨m, h', m.name_mem⟩) e
      simp only [this, decide_false]
      exact find_memb hn.2.1 h'

variable {A : Type}

/-- What is known about the structs of a library. -/
structure Fine (l : CLib A) : Prop where
  nodup : ∀ s ∈ l.structs, (s.members.flatMap CMemb.names).Nodup
  apart : ∀ s ∈ l.structs, (s.members.flatMap (membRanges l.abi s.type)).Pairwise Apart
  inside : ∀ s ∈ l.structs, ∀ r ∈ s.members.flatMap (membRanges l.abi s.type), r.1 + r.2 ≤ l.abi.size s.type
  bytes : ∀ s ∈ l.structs, ∀ m ∈ s.members, 0 < l.abi.size m.type

/-- ... and about the IEs in a list. -/
structure KnownIn (l : CLib A) (g : GIes) : Prop where
  known : ∀ o i, (o, i) ∈ occsIn g → (∃ t, l.value (l.proto.tagPrefix ++ capitals (nameOf o i)) = some t) ∧
    (∀ inst, o.inst = some inst → ∃ t, l.value inst = some t) ∧ (o.optional = true → o.multi = 0)
  typed : ∀ o i, (o, i) ∈ leavesIn g → ∃ f, l.fn (i.decEnc.getD (nameOf o i)) = some f ∧ f.type = typeOf l.proto o i

theorem CLib.offsetof_ok {l : CLib A} {st ms} (hst : membersOf l.structs st = some ms) {m : CMemb} (hm : m ∈ ms) {n : Text}
    (hn : n ∈ m.names) : l.offsetof st n = some (l.abi.ofs st n) := by
  rw [offsetof, hst, Option.bind_some, if_pos (List.mem_flatMap.2 ⟨m, hm, hn⟩)]

theorem CLib.typeof_ok {l : CLib A} (hl : Fine l) {st ms} (hst : membersOf l.structs st = some ms) {m : CMemb} (hm : m ∈ ms) :
    l.typeof st m.name = some m.type := by
  rw [typeof, hst, Option.bind_some, find_memb (hl.nodup _ (membersOf_mem hst)) hm]; rfl

/-- The place of an entry. -/
theorem place_ok {l : CLib A} (hl : Fine l) {st ms} (hst : membersOf l.structs st = some ms) {m : CMemb} (hm : m ∈ ms)
    {h : CHead} (hs : l.structOf h = some st) (h1 : m.name = h.memb) (h2 : m.multi = h.multi) (h3 : m.presence = h.presence)
    (ht : ∃ t, l.value h.tag = some t) (hi : ∀ i, h.inst = some i → ∃ t, l.value i = some t)
    (hb : h.presence = true → h.multi = 0) :
    ∃ p, l.place h = some (p, m.type) ∧ ranges p (l.abi.size m.type) = membRanges l.abi st m ∧
      ∀ max mand, p.kind = .multi max mand → 0 < max ∧ l.abi.size m.type ≤ p.pitch := by
  obtain ⟨t, ht⟩ := ht
  have hto : ∃ ti, l.tagOf h = some ti := by
    rw [CLib.tagOf, ht, Option.bind_some]
    cases hin : h.inst with
    | none => exact ⟨_, rfl⟩
    | some i =>
      obtain ⟨t', ht'⟩ := hi i hin
      exact ⟨{ tag := t, inst := some t' }, by simp [ht']⟩
  obtain ⟨ti, hti⟩ := hto
  have hofs := CLib.offsetof_ok hst hm m.name_mem
  have hty := CLib.typeof_ok hl hst hm
  rw [h1] at hofs hty
  unfold CLib.place
  rw [hti, Option.bind_some, hs]
  simp only [Option.bind_some, hofs, hty]
  unfold CHead.kind
  by_cases hmu : h.multi = 0
  · rw [if_neg (by simpa using hmu)]
    cases hp : h.presence with
    | false =>
      refine ⟨{ ti := ti, kind := .mand, ofs := l.abi.ofs st h.memb }, rfl, ?_, ?_⟩
      · simp [ranges, membRanges, h3, hp, h2, hmu, h1]
      · intro _ _ hk; cases hk
    | true =>
      have hfl := CLib.offsetof_ok (n := h.memb ++ lit "_present") hst hm (by simp [CMemb.names, h3, hp, h1])
      refine ⟨{ ti := ti, kind := .opt, ofs := l.abi.ofs st h.memb, flagOfs := l.abi.ofs st (h.memb ++ lit "_present") }, ?_, ?_, ?_⟩
      · simp [hfl]
      · simp [ranges, membRanges, h3, hp, h2, hmu, h1]
      · intro _ _ hk; cases hk
  · rw [if_pos (by simpa using hmu)]
    have hp : h.presence = false := by
      cases hp : h.presence with
      | false => rfl
      | true => exact absurd (hb hp) hmu
    have hco := CLib.offsetof_ok (n := h.memb ++ lit "_count") hst hm (by
      simp only [CMemb.names, h2, h1, hmu]; simp)
    refine ⟨{ ti := ti, kind := .multi h.multi h.mandatory, ofs := l.abi.ofs st h.memb, pitch := l.abi.size m.type
              countOfs := l.abi.ofs st (h.memb ++ lit "_count") }, ?_, ?_, ?_⟩
    · simp [hp, hco]
    · simp [ranges, membRanges, h3, hp, h2, hmu, h1]
    · intro max mand hk
      cases hk
      exact ⟨by omega, Nat.le_refl _⟩

theorem table_ok {l : CLib A} (hl : Fine l) (g : GIes) : ∀ {obj sub st ms}, ShortIn l.proto g → KnownIn l g →
    (∀ x ∈ groupsIn g, Struct_ l.proto l.structs x) →
    (∀ h : CHead, h.obj = obj → h.sub = sub → l.structOf h = some st) → membersOf l.structs st = some ms →
    (∀ m ∈ g.members l.proto, m ∈ ms) →
    ∃ t, l.table (tableOf l.proto obj sub g) = some t ∧
      tableRanges t = (g.members l.proto).flatMap (membRanges l.abi st) ∧ TabFits t := by
  induction g with
  | nil => intro obj sub st ms _ _ _ _ _ _; exact ⟨.nil, rfl, rfl, trivial⟩
  | ie o i r ih =>
    intro obj sub st ms hs hk hg hso hst hm
    obtain ⟨t, ht, hr, hf⟩ := ih hs.rest ⟨fun o i h => hk.known o i (.tail _ h), fun o i h => hk.typed o i (.tail _ h)⟩ hg hso hst
      (fun m h => hm m (.tail _ h))
    have hm0 := hm _ (List.mem_cons_self ..)
    obtain ⟨k1, k2, k3⟩ := hk.known o i (.head _)
    obtain ⟨p, hp, hpr, hpm⟩ := place_ok hl hst hm0 (hso ⟨l.proto.tagPrefix ++ capitals (nameOf o i), o.inst, obj, sub, o.name,
      o.optional, o.multi, o.multiMandatory⟩ rfl rfl) rfl rfl rfl k1 k2 k3
    obtain ⟨f, hfn, hft⟩ := hk.typed o i (.head _)
    have hsz : byteSize (.leaf (f.leaf l.abi)) = l.abi.size (l.proto.decodedType o i) := by
      rw [hs.here, ← hft]; rfl
    refine ⟨.cons p (.leaf (f.leaf l.abi)) t, ?_, ?_, ?_⟩
    · simp only [tableOf, CLib.table, hp, hfn, ht, Option.bind_some]
    · simp only [tableRanges, GIes.members, List.flatMap_cons, hr, hsz]
      rw [hpr]
    · refine ⟨?_, ?_, hf⟩
      · rw [hsz]; exact hpm
      · have := hl.bytes _ (membersOf_mem hst) _ hm0
        dsimp only at this
        rw [← hsz] at this
        exact this
  | group o i n r ih1 ih2 =>
    intro obj sub st ms hs hk hg hso hst hm
    have hgn := hg (o, i, n) (List.mem_append_right _ (.head _))
    obtain ⟨tn, htn, hrn, hfn⟩ := ih1 (obj := typeOf l.proto o i) (sub := []) (st := typeOf l.proto o i) (ms := n.members l.proto) hs.nested
      ⟨fun o i h => hk.known o i (List.mem_append_left _ h), fun o i h => hk.typed o i (List.mem_append_left _ h)⟩
      (fun x hx => hg x (List.mem_append_left _ hx))
      (by intro h h1 h2; rw [CLib.structOf, if_pos h2, h1]) hgn (fun _ h => h)
    obtain ⟨t, ht, hr, hf⟩ := ih2 hs.rest'
      ⟨fun o i h => hk.known o i (List.mem_append_right _ (.tail _ h)), fun o i h => hk.typed o i (List.mem_append_right _ h)⟩
      (fun x hx => hg x (List.mem_append_right _ (.tail _ hx))) hso hst (fun m h => hm m (.tail _ h))
    have hm0 := hm _ (List.mem_cons_self ..)
    obtain ⟨k1, k2, k3⟩ := hk.known o i (List.mem_append_right _ (.head _))
    obtain ⟨p, hp, hpr, hpm⟩ := place_ok hl hst hm0 (hso ⟨l.proto.tagPrefix ++ capitals (nameOf o i), o.inst, obj, sub, o.name,
      o.optional, o.multi, o.multiMandatory⟩ rfl rfl) rfl rfl rfl k1 k2 k3
    dsimp only at hp hpr hpm
    have hb := hl.bytes _ (membersOf_mem hst) _ hm0
    dsimp only at hb
    rw [hs.here'] at hb hp hpr hpm
    refine ⟨.cons p (.nested (l.abi.size (typeOf l.proto o i)) l.cfg l.ordered tn) t, ?_, ?_, ?_⟩
    · simp only [tableOf, CLib.table, hp, htn, ht, Option.bind_some]
    · simp only [tableRanges, GIes.members, List.flatMap_cons, hr, byteSize]
      rw [hpr, hs.here']
    · refine ⟨hpm, ⟨hb, ?_, ?_, hfn⟩, hf⟩
      · rw [hrn]; exact hl.apart _ (membersOf_mem hgn)
      · rw [hrn]; exact hl.inside _ (membersOf_mem hgn)

end Verif
