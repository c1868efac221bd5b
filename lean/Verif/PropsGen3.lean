/-
C78, exactly: which protocol definitions make gtlv_gen.c write tables and structs that do not match.
-/
import Verif.PropsGen2

namespace Verif.Spec
open Verif

/-- There are IEs. -/
def someIes : GIes → Bool
  | .nil => false
  | _ => true

/-- The IEs of a group, without those nested in them; the last component tells whether there are IEs nested in it. -/
def direct : GIes → List (GOcc × GInfo × Bool)
  | .nil => []
  | .ie o i r => (o, i, false) :: direct r
  | .group o i n r => (o, i, someIes n) :: direct r

/-- Of all IEs with nested IEs that have a type, the first one: its nested IEs. -/
def firstWithType (c : GCfg) (ms : List GMsg) (t : Text) : Option GIes :=
  ((groups ms).find? fun x => typeOf c x.1 x.2.1 = t).map fun x => x.2.2

/-- The IEs `n'` have one of the same name, number and presence; of the same type, if there are IEs nested in it. -/
def HasCounterpart (c : GCfg) (e : GOcc × GInfo × Bool) (n' : GIes) : Prop :=
  ∃ e' ∈ direct n', e'.1.name = e.1.name ∧ e'.1.multi = e.1.multi ∧ e'.1.optional = e.1.optional ∧
    (e.2.2 = true → typeOf c e'.1 e'.2.1 = typeOf c e.1 e.2.1)

end Verif.Spec

namespace Verif
open Spec

theorem members_direct {c : GCfg} : ∀ {g : GIes}, ShortIn c g →
    g.members c = (direct g).map fun e => ⟨e.1.optional, typeOf c e.1 e.2.1, e.1.name, e.1.multi⟩
  | .nil, _ => rfl
  | .ie o i r, h => by
    rw [GIes.members, direct, List.map_cons, members_direct h.rest, h.here]
  | .group o i n r, h => by
    rw [GIes.members, direct, List.map_cons, members_direct h.rest', h.here']

theorem shortIn_group {c : GCfg} {g : GIes} {x} (h : ShortIn c g) (hx : x ∈ groupsIn g) : ShortIn c x.2.2 := by
  induction g with
  | nil => cases hx
  | ie o i r ih => exact ih h.rest hx
  | group o i n r ih1 ih2 =>
    rcases List.mem_append.1 hx with hx | hx
    · exact ih1 h.nested hx
    · rcases List.mem_cons.1 hx with rfl | hx
      · exact h.nested
      · exact ih2 h.rest' hx

/-- What the seen types, the structs written so far, and the groups they are for have to do with each other. -/
structure FirstInv (c : GCfg) (P : List (GOcc × GInfo × GIes)) (l : Seen) (done : List CStruct) : Prop where
  none : ∀ e ∈ l, e.2 = none
  known : ∀ e ∈ l, ∃ s ∈ done, s.type = e.1
  first : ∀ s ∈ done, ∃ x, (P.find? fun x => typeOf c x.1 x.2.1 = s.type) = some x ∧ s.members = x.2.2.members c
  seen : ∀ x ∈ P, ∃ e ∈ l, e.1 = typeOf c x.1 x.2.1

theorem structs_first {c : GCfg} (g : GIes) : ∀ {P l done out l'}, ShortIn c g →
    FirstInv c P l done → g.structs c l = some (out, l') → FirstInv c (P ++ groupsIn g) l' (done ++ out) := by
  induction g with
  | nil => intro P l done out l' _ h he; cases he; simpa [groupsIn] using h
  | ie o i r ih => intro P l done out l' hs h he; exact ih hs.rest h he
  | group o i n r ih1 ih2 =>
    intro P l done out l' hs h he
    rw [GIes.structs] at he
    obtain ⟨⟨a1, l1⟩, h1, he⟩ := Option.bind_eq_some_iff.1 he
    obtain ⟨⟨b, l2⟩, h2, he⟩ := Option.bind_eq_some_iff.1 he
    obtain ⟨⟨a2, l3⟩, h3, he⟩ := Option.bind_eq_some_iff.1 he
    cases he
    have i1 := ih1 hs.nested h h1
    have key : ∀ mid, mid = (if b then [] else [(⟨c.decodedType o i, n.members c⟩ : CStruct)]) →
        FirstInv c ((P ++ groupsIn n) ++ [(o, i, n)]) l2 ((done ++ a1) ++ mid) := by
      intro mid hmid
      rw [hs.here'] at h2 hmid
      have hstable : ∀ s ∈ done ++ a1, ∃ x, (((P ++ groupsIn n) ++ [(o, i, n)]).find? fun x => typeOf c x.1 x.2.1 = s.type) = some x ∧
          s.members = x.2.2.members c := by
        intro s hs'
        obtain ⟨x, hx1, hx2⟩ := i1.first s hs'
        exact ⟨x, by rw [List.find?_append, hx1]; rfl, hx2⟩
      rcases seen_cases h2 with ⟨rfl, rfl, hmem⟩ | ⟨rfl, rfl, hnew⟩
      · rw [if_pos rfl] at hmid
        subst hmid
        rw [List.append_nil]
        refine ⟨i1.none, i1.known, hstable, ?_⟩
        intro x hx
        rcases List.mem_append.1 hx with hx | hx
        · exact i1.seen x hx
        · rw [List.mem_singleton.1 hx]
          exact ⟨_, hmem, rfl⟩
      · rw [if_neg (by simp)] at hmid
        subst hmid
        have hlen := hs.type o i hs.mem
        rw [List.take_of_length_le hlen]
        refine ⟨?_, ?_, ?_, ?_⟩
        · intro e he
          rcases List.mem_cons.1 he with he' | he'
          · rw [he']
          · exact i1.none e he'
        · intro e he
          rcases List.mem_cons.1 he with he' | he'
          · exact ⟨_, List.mem_append_right _ (.head _), by rw [he']⟩
          · obtain ⟨s, h1, h2⟩ := i1.known e he'
            exact ⟨s, List.mem_append_left _ h1, h2⟩
        · intro s hs'
          rcases List.mem_append.1 hs' with hs' | hs'
          · exact hstable s hs'
          · rw [List.mem_singleton.1 hs']
            refine ⟨(o, i, n), ?_, rfl⟩
            rw [List.find?_append]
            have : ((P ++ groupsIn n).find? fun x => typeOf c x.1 x.2.1 = typeOf c o i) = none := by
              rw [List.find?_eq_none]
              intro x hx hxe
              obtain ⟨e, he1, he2⟩ := i1.seen x hx
              exact hnew e he1 (by rw [he2]; simpa using hxe)
            rw [this]
            simp
        · intro x hx
          rcases List.mem_append.1 hx with hx | hx
          · obtain ⟨e, he1, he2⟩ := i1.seen x hx
            exact ⟨e, .tail _ he1, he2⟩
          · rw [List.mem_singleton.1 hx]
            exact ⟨_, .head _, rfl⟩
    have i2 := key _ rfl
    have i3 := ih2 hs.rest' i2 h3
    have assoc : ∀ mid : List CStruct, done ++ (a1 ++ (mid ++ a2)) = done ++ a1 ++ mid ++ a2 := by simp
    have assoc' : P ++ groupsIn (.group o i n r) = (P ++ groupsIn n) ++ [(o, i, n)] ++ groupsIn r := by simp [groupsIn]
    rw [assoc, assoc']
    exact i3

theorem eachMsg_first {c : GCfg} : ∀ {ms P l done out l'}, (∀ m ∈ ms, ShortIn c m.ies) → FirstInv c P l done →
    eachMsg (GIes.structs c) ms l = some (out, l') → FirstInv c (P ++ groups ms) l' (done ++ out)
  | [], P, l, done, out, l', _, hI, h => by cases h; simpa [groups] using hI
  | m :: ms, P, l, done, out, l', hs, hI, h => by
    rw [eachMsg] at h
    obtain ⟨⟨a1, l1⟩, h1, h⟩ := Option.bind_eq_some_iff.1 h
    obtain ⟨⟨a2, l2⟩, h2, h⟩ := Option.bind_eq_some_iff.1 h
    cases h
    have i2 := eachMsg_first (fun x hx => hs x (.tail _ hx)) (structs_first m.ies (hs m (.head _)) hI h1) h2
    rw [← List.append_assoc, groups, List.flatMap_cons, ← List.append_assoc]
    exact i2

/-- A member of a list of members, for an entry. -/
def InMembers (c : GCfg) (e : GOcc × GInfo × Bool) (ms : List CMemb) : Prop :=
  ∃ m ∈ ms, m.name = e.1.name ∧ m.multi = e.1.multi ∧ m.presence = e.1.optional ∧ (e.2.2 = true → m.type = typeOf c e.1 e.2.1)

theorem inMembers_iff {c : GCfg} {e} {n' : GIes} (h : ShortIn c n') : InMembers c e (n'.members c) ↔ HasCounterpart c e n' := by
  unfold InMembers HasCounterpart
  rw [members_direct h]
  constructor
  · rintro ⟨m, hm, h1, h2, h3, h4⟩
    obtain ⟨e', he', rfl⟩ := List.mem_map.1 hm
    exact ⟨e', he', h1, h2, h3, h4⟩
  · rintro ⟨e', he', h1, h2, h3, h4⟩
    exact ⟨_, List.mem_map.2 ⟨e', he', rfl⟩, h1, h2, h3, h4⟩

theorem obj_tableOf {c : GCfg} {obj sub : Text} {n : GIes} {t} : Tab.obj (tableOf c obj sub n) = some t ↔ someIes n = true ∧ obj = t := by
  cases n <;> simp [tableOf, Tab.obj, someIes]

theorem room_iff {c : GCfg} {env : List CStruct} (g : GIes) : ∀ {obj sub ms},
    (∀ h : CHead, h.obj = obj → h.sub = sub → structFor c env h = some ms) →
    (∀ x ∈ groupsIn g, ∃ ms, membersOf env (typeOf c x.1 x.2.1) = some ms) →
    (Room c env (tableOf c obj sub g) ↔ (∀ e ∈ direct g, InMembers c e ms) ∧
      ∀ x ∈ groupsIn g, ∀ ms, membersOf env (typeOf c x.1 x.2.1) = some ms → ∀ e ∈ direct x.2.2, InMembers c e ms) := by
  induction g with
  | nil => intros; simp [tableOf, Room, direct, groupsIn]
  | ie o i r ih =>
    intro obj sub ms hst hall
    have h1 : ∀ h : CHead, h.obj = obj → h.sub = sub → h.memb = o.name → h.multi = o.multi → h.presence = o.optional →
        (HasRoom c env h none ↔ InMembers c (o, i, false) ms) := by
      intro h e1 e2 e3 e4 e5
      unfold HasRoom InMembers
      rw [hst h e1 e2]
      constructor
      · rintro ⟨ms', m, hms, hm, a1, a2, a3, -⟩
        cases hms
        exact ⟨m, hm, a1.trans e3, a2.trans e4, a3.trans e5, by simp⟩
      · rintro ⟨m, hm, a1, a2, a3, -⟩
        exact ⟨ms, m, rfl, hm, a1.trans e3.symm, a2.trans e4.symm, a3.trans e5.symm, by simp⟩
    rw [tableOf, Room, h1 _ rfl rfl rfl rfl rfl, ih hst hall, direct, groupsIn]
    simp only [List.mem_cons, forall_eq_or_imp, and_assoc]
  | group o i n r ih1 ih2 =>
    intro obj sub ms hst hall
    have h1 : ∀ h : CHead, h.obj = obj → h.sub = sub → h.memb = o.name → h.multi = o.multi → h.presence = o.optional →
        (HasRoom c env h (Tab.obj (tableOf c (typeOf c o i) [] n)) ↔ InMembers c (o, i, someIes n) ms) := by
      intro h e1 e2 e3 e4 e5
      unfold HasRoom InMembers
      rw [hst h e1 e2]
      constructor
      · rintro ⟨ms', m, hms, hm, a1, a2, a3, a4⟩
        cases hms
        refine ⟨m, hm, a1.trans e3, a2.trans e4, a3.trans e5, ?_⟩
        intro hn
        exact a4 _ (obj_tableOf.2 ⟨hn, rfl⟩)
      · rintro ⟨m, hm, a1, a2, a3, a4⟩
        refine ⟨ms, m, rfl, hm, a1.trans e3.symm, a2.trans e4.symm, a3.trans e5.symm, ?_⟩
        intro t ht
        obtain ⟨hn, rfl⟩ := obj_tableOf.1 ht
        exact a4 hn
    obtain ⟨ms', hms'⟩ := hall (o, i, n) (List.mem_append_right _ (.head _))
    dsimp only at hms'
    have hin : ∀ h : CHead, h.obj = typeOf c o i → h.sub = [] → structFor c env h = some ms' := by
      intro h e1 e2
      rw [structFor, if_pos e2, e1, hms']
    rw [tableOf, Room, h1 _ rfl rfl rfl rfl rfl, ih1 hin (fun x hx => hall x (List.mem_append_left _ hx)),
      ih2 hst (fun x hx => hall x (List.mem_append_right _ (.tail _ hx))), direct, groupsIn]
    simp only [List.mem_cons, List.mem_append, forall_eq_or_imp]
    constructor
    · rintro ⟨a1, ⟨a2, a3⟩, a4, a5⟩
      refine ⟨⟨a1, a4⟩, ?_⟩
      rintro x (hx | rfl | hx)
      · exact a3 x hx
      · intro ms2 h2
        dsimp only at h2 ⊢
        rw [hms'] at h2
        cases h2
        exact a2
      · exact a5 x hx
    · rintro ⟨⟨a1, a4⟩, a5⟩
      exact ⟨a1, ⟨a5 _ (.inr (.inl rfl)) _ hms', fun x hx => a5 x (.inl hx)⟩, a4, fun x hx => a5 x (.inr (.inr hx))⟩

theorem direct_self {c : GCfg} {g : GIes} (h : ShortIn c g) : ∀ e ∈ direct g, InMembers c e (g.members c) := by
  intro e he
  rw [inMembers_iff h]
  exact ⟨e, he, rfl, rfl, rfl, fun _ => rfl⟩

namespace Props

/-- C78, exactly: whatever the tables make the decoder write has a place in the structs if and only if, for each IE with nested
IEs, all of these have a counterpart in the first IE with nested IEs of the same type: it is for this one that the struct is
written. -/
theorem C78_exactly {c : GCfg} {ms : List GMsg} {ss env} (hs : Short c ms) (hw : writeH c ms = some ss)
    (hc : compileH ss [] = some env) :
    (∀ m ∈ ms, Room c env (msgTable c m)) ↔
      ∀ o i n, (o, i, n) ∈ groups ms → ∃ n', firstWithType c ms (typeOf c o i) = some n' ∧ ∀ e ∈ direct n, HasCounterpart c e n' := by
  obtain ⟨⟨s, l⟩, h1, h⟩ := Option.bind_eq_some_iff.1 hw
  cases h
  have hI := eachMsg_first (P := []) (done := []) (fun m hm => hs.inMsg hm) ⟨by simp, by simp, by simp, by simp⟩ h1
  rw [List.nil_append, List.nil_append] at hI
  obtain ⟨-, h2⟩ := compileH_spec hc
  have hshort : ∀ x ∈ groups ms, ShortIn c x.2.2 := by
    rintro ⟨o, i, n⟩ hx
    rw [groups, List.mem_flatMap] at hx
    obtain ⟨m, hm, hx⟩ := hx
    exact shortIn_group (hs.inMsg hm) hx
  have hstruct : ∀ x ∈ groups ms, ∃ n', firstWithType c ms (typeOf c x.1 x.2.1) = some n' ∧ ShortIn c n' ∧
      membersOf env (typeOf c x.1 x.2.1) = some (n'.members c) := by
    intro x hx
    obtain ⟨e, he1, he2⟩ := hI.seen x hx
    obtain ⟨st, hst, hty⟩ := hI.known e he1
    obtain ⟨y, hy1, hy2⟩ := hI.first st hst
    have h3 := h2 _ (List.mem_append_left _ hst)
    rw [hty, he2] at h3 hy1
    refine ⟨y.2.2, ?_, hshort y (List.mem_of_find?_eq_some hy1), by rw [h3, hy2]⟩
    unfold firstWithType
    rw [hy1]
    rfl
  have hmsg : ∀ m ∈ ms, membersOf env (c.msgType m.name) = some (m.ies.members c) := fun m hm =>
    h2 ⟨c.msgType m.name, m.ies.members c⟩ (List.mem_append_right _ (List.mem_map.2 ⟨m, hm, rfl⟩))
  have hroom : ∀ m ∈ ms, (Room c env (msgTable c m) ↔ ∀ x ∈ groupsIn m.ies, ∀ mm, membersOf env (typeOf c x.1 x.2.1) = some mm →
      ∀ e ∈ direct x.2.2, InMembers c e mm) := by
    intro m hm
    unfold msgTable
    rw [room_iff m.ies (ms := m.ies.members c) ?_ ?_]
    · exact ⟨fun h => h.2, fun h => ⟨direct_self (hs.inMsg hm), h⟩⟩
    · intro h ho hsub
      rw [structFor, if_neg (by rw [hsub]; exact (hs.msg m hm).1), if_pos ho, hsub]
      exact hmsg m hm
    · intro x hx
      obtain ⟨n', -, -, h⟩ := hstruct x (groups_mem m hm x hx)
      exact ⟨_, h⟩
  constructor
  · intro h o i n hx
    obtain ⟨n', e1, e2, e3⟩ := hstruct _ hx
    refine ⟨n', e1, ?_⟩
    intro e he
    rw [groups, List.mem_flatMap] at hx
    obtain ⟨m, hm, hx⟩ := hx
    exact (inMembers_iff e2).1 ((hroom m hm).1 (h m hm) _ hx _ e3 e he)
  · intro h m hm
    rw [hroom m hm]
    rintro ⟨o, i, n⟩ hx mm hmm e he
    obtain ⟨n', e1, e2, e3⟩ := hstruct _ (groups_mem m hm _ hx)
    obtain ⟨n'', f1, f2⟩ := h o i n (groups_mem m hm _ hx)
    rw [e3] at hmm
    cases hmm
    dsimp only at e1
    rw [e1] at f1
    cases f1
    exact (inMembers_iff e2).2 (f2 e he)

/-- Two IEs of the same type, of which the second has some of the nested IEs of the first: not consistent, but there is room. -/
def exSubset : List GMsg := [
  { name := lit "m"
    ies := .group { name := lit "a" } { addr := 1, decodedType := some (lit "struct s") }
        (.ie { name := lit "x", multi := 4 } exLeaf (.ie { name := lit "y", optional := true } exLeaf .nil)) <|
      .group { name := lit "b" } { addr := 2, decodedType := some (lit "struct s") } (.ie { name := lit "x", multi := 4 } exLeaf .nil) .nil }]

example : ¬ Consistent exCfg exSubset ∧ ∃ ss env, writeH exCfg exSubset = some ss ∧ compileH ss [] = some env ∧
    ∀ m ∈ exSubset, Room exCfg env (msgTable exCfg m) := by
  have hs : Short exCfg exSubset := short_of (by decide +kernel)
  refine ⟨?_, ?_⟩
  · intro h
    have := h _ _ _ _ _ _ (.head _) (.tail _ (.head _)) rfl
    exact absurd this (by decide +kernel)
  · obtain ⟨ss, hw⟩ : ∃ ss, writeH exCfg exSubset = some ss := Option.isSome_iff_exists.1 (by decide +kernel)
    have hc : ((writeH exCfg exSubset).bind fun ss => compileH ss []).isSome = true := by decide +kernel
    rw [hw, Option.bind_some] at hc
    obtain ⟨env, hc⟩ := Option.isSome_iff_exists.1 hc
    refine ⟨ss, env, hw, hc, (C78_exactly hs hw hc).2 ?_⟩
    intro o i n hx
    have hx' : (o, i, n) ∈ [(({ name := lit "a" } : GOcc), ({ addr := 1, decodedType := some (lit "struct s") } : GInfo),
        GIes.ie { name := lit "x", multi := 4 } exLeaf (.ie { name := lit "y", optional := true } exLeaf .nil)),
      (({ name := lit "b" } : GOcc), ({ addr := 2, decodedType := some (lit "struct s") } : GInfo),
        GIes.ie { name := lit "x", multi := 4 } exLeaf .nil)] := hx
    refine ⟨GIes.ie { name := lit "x", multi := 4 } exLeaf (.ie { name := lit "y", optional := true } exLeaf .nil), ?_, ?_⟩
    · rcases List.mem_cons.1 hx' with h | h
      · cases h; decide +kernel
      · cases List.mem_singleton.1 h; decide +kernel
    · rcases List.mem_cons.1 hx' with h | h
      · cases h
        intro e he
        exact ⟨e, he, rfl, rfl, rfl, fun _ => rfl⟩
      · cases List.mem_singleton.1 h
        intro e he
        exact ⟨e, by cases List.mem_singleton.1 he; exact .head _, rfl, rfl, rfl, fun _ => rfl⟩

/-! And in `exShared` the nested IE of `b` has no counterpart in `a`. -/
example : ∃ o i n, (o, i, n) ∈ groups exShared ∧ ¬ ∃ n', firstWithType exCfg exShared (typeOf exCfg o i) = some n' ∧
    ∀ e ∈ direct n, HasCounterpart exCfg e n' := by
  refine ⟨{ name := lit "b" }, { addr := 2, decodedType := some (lit "struct s") }, .ie { name := lit "x", multi := 32 } exLeaf .nil,
    .tail _ (.head _), ?_⟩
  rintro ⟨n', h1, h2⟩
  have e : firstWithType exCfg exShared (lit "struct s") = some (.ie { name := lit "x", multi := 4 } exLeaf .nil) := by decide +kernel
  have h1' := e.symm.trans h1
  cases h1'
  obtain ⟨e', he', -, h3, -⟩ := h2 _ (.head _)
  cases List.mem_singleton.1 he'
  exact absurd h3 (by decide)

end Props
end Verif
