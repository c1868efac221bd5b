/-
Proofs about the generator.
-/
import Verif.SpecGen

namespace Verif
open Spec

/-! ### Names -/

theorem toUpper_short {s : Text} (h : s.length ≤ 127) : toUpper s = capitals s := by
  rw [toUpper, capitals, List.take_of_length_le h]

theorem decodedType_short {c : GCfg} {o i} (h : i.decodedType = none → (typeOf c o i).length ≤ 254) :
    c.decodedType o i = typeOf c o i := by
  unfold GCfg.decodedType
  cases hd : i.decodedType with
  | some t => simp [typeOf, hd]
  | none =>
    have := h hd
    simp only [typeOf, hd, Option.getD_none, nameOf] at this ⊢
    exact List.take_of_length_le this

theorem mem_occsIn_of_groups {g : GIes} {o i n} (h : (o, i, n) ∈ groupsIn g) : (o, i) ∈ occsIn g := by
  induction g with
  | nil => cases h
  | ie o' i' r ih => exact List.mem_cons_of_mem _ (ih h)
  | group o' i' n' r ih1 ih2 =>
    rw [occsIn]
    rcases List.mem_append.1 h with h | h
    · exact List.mem_append_left _ (ih1 h)
    · rcases List.mem_cons.1 h with h' | h'
      · cases h'; exact List.mem_append_right _ (.head _)
      · exact List.mem_append_right _ (.tail _ (ih2 h'))

/-- Names in a list of IEs are short. -/
structure ShortIn (c : GCfg) (g : GIes) : Prop where
  name : ∀ o i, (o, i) ∈ occsIn g → (nameOf o i).length ≤ 127
  derived : ∀ o i, (o, i) ∈ occsIn g → i.decodedType = none → (typeOf c o i).length ≤ 254
  type : ∀ o i, (o, i) ∈ occsIn g → (typeOf c o i).length ≤ 255
  func : ∀ o i, (o, i) ∈ occsIn g → (i.decEnc.getD (nameOf o i)).length ≤ 255

theorem Spec.Short.inMsg {c ms} (h : Short c ms) {m} (hm : m ∈ ms) : ShortIn c m.ies :=
  have hs : ∀ o i, (o, i) ∈ occsIn m.ies → (o, i) ∈ occs ms := fun _ _ ho => List.mem_flatMap.2 ⟨m, hm, ho⟩
  ⟨fun o i ho => h.name o i (hs _ _ ho), fun o i ho => h.derived o i (hs _ _ ho), fun o i ho => h.type o i (hs _ _ ho),
   fun o i ho => h.func o i (hs _ _ ho)⟩

theorem ShortIn.sub {c g g'} (h : ShortIn c g) (hs : ∀ x, x ∈ occsIn g' → x ∈ occsIn g) : ShortIn c g' :=
  ⟨fun o i ho => h.name o i (hs _ ho), fun o i ho => h.derived o i (hs _ ho), fun o i ho => h.type o i (hs _ ho),
   fun o i ho => h.func o i (hs _ ho)⟩

theorem ShortIn.rest {c o i r} (h : ShortIn c (.ie o i r)) : ShortIn c r := h.sub fun _ hx => .tail _ hx
theorem ShortIn.nested {c o i n r} (h : ShortIn c (.group o i n r)) : ShortIn c n :=
  h.sub fun _ hx => List.mem_append_left _ hx
theorem ShortIn.rest' {c o i n r} (h : ShortIn c (.group o i n r)) : ShortIn c r :=
  h.sub fun _ hx => List.mem_append_right _ (.tail _ hx)
theorem ShortIn.here {c o i r} (h : ShortIn c (.ie o i r)) : c.decodedType o i = typeOf c o i :=
  decodedType_short (h.derived o i (.head _))
theorem ShortIn.mem {c o i n r} (_ : ShortIn c (.group o i n r)) : (o, i) ∈ occsIn (.group o i n r) :=
  List.mem_append_right _ (.head _)
theorem ShortIn.here' {c o i n r} (h : ShortIn c (.group o i n r)) : c.decodedType o i = typeOf c o i :=
  decodedType_short (h.derived o i h.mem)

theorem leaves_occs {x} : ∀ {g : GIes}, x ∈ leavesIn g → x ∈ occsIn g := by
  intro g
  induction g with
  | nil => intro h; cases h
  | ie o' i' r ih =>
    intro h
    rcases List.mem_cons.1 h with h | h
    · rw [h]; exact .head _
    · exact .tail _ (ih h)
  | group o' i' n' r ih1 ih2 =>
    intro h
    rcases List.mem_append.1 h with h | h
    · exact List.mem_append_left _ (ih1 h)
    · exact List.mem_append_right _ (.tail _ (ih2 h))

/-! ### Lookup -/

theorem CEnv.get_cons (e : Text × Tab) (env : CEnv) (n : Text) :
    CEnv.get (e :: env) n = if e.1 = n then some e.2 else env.get n := by
  unfold CEnv.get
  rw [List.find?_cons]
  by_cases h : e.1 = n <;> simp [h]

/-- What can be found stays the same. -/
def Extends (env env' : CEnv) : Prop := ∀ n t, env.get n = some t → env'.get n = some t

theorem Extends.refl (env) : Extends env env := fun _ _ h => h
theorem Extends.trans {a b c} (h : Extends a b) (h' : Extends b c) : Extends a c := fun n t hn => h' n t (h n t hn)
theorem Extends.cons {env : CEnv} {e : Text × Tab} (h : env.get e.1 = none) : Extends env (e :: env) := by
  intro n t hn
  rw [CEnv.get_cons]
  split
  · rename_i he
    rw [he] at h
    rw [h] at hn
    cases hn
  · exact hn

theorem compile_append (a b : List CArray) (env : CEnv) :
    compile (a ++ b) env = (compile a env).bind (compile b) := by
  induction a generalizing env with
  | nil => rfl
  | cons x a ih =>
    rw [List.cons_append, compile, compile]
    split
    · rfl
    · cases resolve env x.entries with
      | none => rfl
      | some t => exact ih _

theorem compile_grows {a : List CArray} {env env' : CEnv} (h : compile a env = some env') : Extends env env' := by
  induction a generalizing env with
  | nil => cases h; exact .refl _
  | cons x a ih =>
    rw [compile] at h
    split at h
    · cases h
    · rename_i hn
      cases hr : resolve env x.entries with
      | none => rw [hr] at h; cases h
      | some t =>
        rw [hr] at h
        exact (Extends.cons (e := (x.name, t)) (by simpa using hn)).trans (ih h)

/-! ### Arrays -/

/-- The table of an IE with nested IEs can be found. -/
def Declared (c : GCfg) (env : CEnv) (x : GOcc × GInfo × GIes) : Prop :=
  env.get (lit "ies_in_" ++ nameOf x.1 x.2.1) = some (tableOf c (typeOf c x.1 x.2.1) [] x.2.2)

theorem resolve_entries {c : GCfg} {env : CEnv} {obj sub : Text} {g : GIes} (hs : ShortIn c g)
    (h : ∀ x ∈ groupsIn g, Declared c env x) : resolve env (g.entries c obj sub) = some (tableOf c obj sub g) := by
  induction g with
  | nil => rfl
  | ie o i r ih =>
    rw [GIes.entries, resolve, ih hs.rest h]
    simp only [Option.bind_some, tableOf, GCfg.head, suffixOf]
    rw [show toUpper (i.tagName.getD o.name) = _ from toUpper_short (hs.name o i (.head _))]
    rfl
  | group o i n r ih1 ih2 =>
    rw [GIes.entries, resolve]
    have hd := h (o, i, n) (List.mem_append_right _ (.head _))
    unfold Declared at hd
    rw [arrayName]
    change env.get (lit "ies_in_" ++ i.tagName.getD o.name) = _ at hd
    rw [hd, Option.bind_some, ih2 hs.rest' fun x hx => h x (List.mem_append_right _ (.tail _ hx))]
    simp only [Option.bind_some, tableOf, GCfg.head]
    rw [show toUpper (i.tagName.getD o.name) = _ from toUpper_short (hs.name o i hs.mem)]
    rfl

theorem seen_cases {l : Seen} {s f b l'} (h : seen l s f = some (b, l')) :
    (b = true ∧ l' = l ∧ (s, f) ∈ l) ∨ (b = false ∧ l' = (s.take 255, f) :: l ∧ ∀ e ∈ l, e.1 ≠ s) := by
  unfold seen at h
  cases hf : l.find? fun e => e.1 = s with
  | some e =>
    rw [hf] at h
    dsimp only at h
    split at h
    · cases h
    · rename_i hn
      cases h
      have h1 := List.mem_of_find?_eq_some hf
      have h2 := List.find?_some hf
      simp at h2
      simp at hn
      left
      refine ⟨rfl, rfl, ?_⟩
      rw [← h2, hn]
      exact h1
  | none =>
    rw [hf] at h
    cases h
    right
    refine ⟨rfl, rfl, ?_⟩
    intro e he
    simpa using List.find?_eq_none.1 hf e he

/-- What the list of seen names and the arrays have to do with each other. `D`: the IEs with nested IEs. -/
structure SeenInv (c : GCfg) (D : List (GOcc × GInfo × GIes)) (l : Seen) (env : CEnv) : Prop where
  /-- Seen names are those of IEs whose table is declared. -/
  known : ∀ e ∈ l, ∃ x ∈ D, nameOf x.1 x.2.1 = e.1 ∧ e.2 = some x.2.1.addr ∧ Declared c env x
  /-- Only tables of seen names are declared. -/
  only : ∀ n, (env.get (lit "ies_in_" ++ n)).isSome → ∃ e ∈ l, e.1 = n
  /-- A name is there once. -/
  once : (l.map (·.1)).Nodup

theorem SeenInv.nil (c D) : SeenInv c D [] [] := ⟨by simp, by simp [CEnv.get], by simp⟩

/-- What is true after a list of IEs was processed. -/
structure Done (c : GCfg) (D : List (GOcc × GInfo × GIes)) (g : List (GOcc × GInfo × GIes)) (l : Seen) (env : CEnv)
    (out : List CArray) (l' : Seen) : Prop where
  ok : ∃ env', compile out env = some env' ∧ SeenInv c D l' env' ∧ ∀ x ∈ g, Declared c env' x
  mono : ∀ e ∈ l, e ∈ l'
  listed : ∀ x ∈ g, (nameOf x.1 x.2.1, some x.2.1.addr) ∈ l'

/-- Definitions are identified by their address. -/
def Ident (D : List (GOcc × GInfo × GIes)) : Prop :=
  ∀ o i n o' i' n', (o, i, n) ∈ D → (o', i', n') ∈ D → i.addr = i'.addr → i = i' ∧ n = n'

theorem Declared.grows {c : GCfg} {env env' : CEnv} {x} (h : Declared c env x) (hg : Extends env env') : Declared c env' x := hg _ _ h

theorem typeOf_name {c : GCfg} {o o' : GOcc} {i : GInfo} (h : nameOf o i = nameOf o' i) : typeOf c o i = typeOf c o' i := by
  simp [typeOf, h]

theorem Done.nil {c D l env} (h : SeenInv c D l env) : Done c D [] l env [] l :=
  ⟨⟨env, rfl, h, by simp⟩, fun _ he => he, by simp⟩

theorem arrays_done {c : GCfg} {D : List (GOcc × GInfo × GIes)} (hD : Ident D) (g : GIes) : ∀ {l env out l'},
    ShortIn c g → (∀ x ∈ groupsIn g, x ∈ D) → SeenInv c D l env → g.arrays c l = some (out, l') →
      Done c D (groupsIn g) l env out l' := by
  induction g with
  | nil => intro l env out l' _ _ hI h; cases h; exact Done.nil hI
  | ie o i r ih => intro l env out l' hs hm hI h; exact ih hs.rest hm hI h
  | group o i n r ih1 ih2 =>
    intro l env out l' hs hm hI h
    rw [GIes.arrays] at h
    obtain ⟨⟨a1, l1⟩, h1, h⟩ := Option.bind_eq_some_iff.1 h
    obtain ⟨⟨b, l2⟩, h2, h⟩ := Option.bind_eq_some_iff.1 h
    obtain ⟨⟨a2, l3⟩, h3, h⟩ := Option.bind_eq_some_iff.1 h
    cases h
    have hx : (o, i, n) ∈ D := hm _ (List.mem_append_right _ (.head _))
    have d1 := ih1 hs.nested (fun x hx => hm x (List.mem_append_left _ hx)) hI h1
    obtain ⟨env1, hc1, hI1, hd1⟩ := d1.ok
    -- the array of this IE
    have key : ∃ env2, compile (if b then [] else [⟨arrayName o i, n.entries c (c.decodedType o i) []⟩]) env1 = some env2 ∧
        SeenInv c D l2 env2 ∧ Declared c env2 (o, i, n) ∧ (nameOf o i, some i.addr) ∈ l2 ∧ ∀ e ∈ l1, e ∈ l2 := by
      rcases seen_cases h2 with ⟨rfl, rfl, hmem⟩ | ⟨rfl, rfl, hnew⟩
      · refine ⟨env1, rfl, hI1, ?_, hmem, fun _ he => he⟩
        obtain ⟨⟨o', i', n'⟩, hxD, hn, ha, hdec⟩ := hI1.known _ hmem
        dsimp only at hn ha hdec
        have hai : i.addr = i'.addr := by simpa using ha
        obtain ⟨rfl, rfl⟩ := hD _ _ _ _ _ _ hx hxD hai
        have hno : nameOf o' i = nameOf o i := hn
        unfold Declared at hdec ⊢
        dsimp only at hdec ⊢
        rw [hno, typeOf_name hno] at hdec
        exact hdec
      · have hlen : (nameOf o i).length ≤ 127 := hs.name o i hs.mem
        have htk : (i.tagName.getD o.name).take 255 = nameOf o i := List.take_of_length_le (by change (nameOf o i).length ≤ 255; omega)
        have hnone : env1.get (arrayName o i) = none := by
          cases hg : env1.get (arrayName o i) with
          | none => rfl
          | some t =>
            obtain ⟨e, he, hen⟩ := hI1.only (i.tagName.getD o.name) (by rw [← arrayName, hg]; rfl)
            exact absurd hen (hnew e he)
        have hres := resolve_entries (obj := typeOf c o i) (sub := []) hs.nested hd1
        refine ⟨(arrayName o i, tableOf c (typeOf c o i) [] n) :: env1, ?_, ?_, ?_, ?_, fun _ he => .tail _ he⟩
        · rw [hs.here']
          simp only [Bool.false_eq_true, if_false, compile, hnone, Option.isSome_none, hres, Option.bind_some]
        · have hdx : Declared c ((arrayName o i, tableOf c (typeOf c o i) [] n) :: env1) (o, i, n) := by
            show CEnv.get _ _ = _
            rw [CEnv.get_cons]
            exact if_pos rfl
          refine ⟨?_, ?_, ?_⟩
          · intro e he
            rcases List.mem_cons.1 he with he' | he'
            · refine ⟨(o, i, n), hx, ?_, ?_, hdx⟩
              · rw [he', htk]
              · rw [he']
            · obtain ⟨x, h1, h2, h3, h4⟩ := hI1.known e he'
              exact ⟨x, h1, h2, h3, h4.grows (.cons hnone)⟩
          · intro m hm'
            rw [CEnv.get_cons] at hm'
            split at hm'
            · rename_i heq
              refine ⟨_, .head _, ?_⟩
              dsimp only [arrayName] at heq
              rw [htk]
              exact List.append_cancel_left heq
            · obtain ⟨e, he, hen⟩ := hI1.only m hm'
              exact ⟨e, .tail _ he, hen⟩
          · rw [List.map_cons, List.nodup_cons]
            refine ⟨?_, hI1.once⟩
            rw [List.mem_map]
            rintro ⟨e, he, hen⟩
            dsimp only at hen
            rw [htk] at hen
            exact hnew e he hen
        · show CEnv.get _ _ = _
          rw [CEnv.get_cons]
          exact if_pos rfl
        · rw [htk]; exact .head _
    obtain ⟨env2, hc2, hI2, hd2, hl2, hm2⟩ := key
    have d3 := ih2 hs.rest' (fun x hx => hm x (List.mem_append_right _ (.tail _ hx))) hI2 h3
    obtain ⟨env3, hc3, hI3, hd3⟩ := d3.ok
    have g12 := compile_grows hc2
    have g23 := compile_grows hc3
    refine ⟨⟨env3, ?_, hI3, ?_⟩, ?_, ?_⟩
    · rw [compile_append, hc1, Option.bind_some, compile_append, hc2, Option.bind_some, hc3]
    · intro x hxg
      rcases List.mem_append.1 hxg with hxg | hxg
      · exact (hd1 x hxg).grows (g12.trans g23)
      · rcases List.mem_cons.1 hxg with hxg' | hxg'
        · rw [hxg']; exact hd2.grows g23
        · exact hd3 x hxg'
    · intro e he; exact d3.mono e (hm2 e (d1.mono e he))
    · intro x hxg
      rcases List.mem_append.1 hxg with hxg | hxg
      · exact d3.mono _ (hm2 _ (d1.listed x hxg))
      · rcases List.mem_cons.1 hxg with hxg' | hxg'
        · rw [hxg']; exact d3.mono _ hl2
        · exact d3.listed x hxg'

theorem eachMsg_done {c : GCfg} {D : List (GOcc × GInfo × GIes)} (hD : Ident D) : ∀ {ms l env out l'},
    (∀ m ∈ ms, ShortIn c m.ies) → (∀ m ∈ ms, ∀ x ∈ groupsIn m.ies, x ∈ D) → SeenInv c D l env →
    eachMsg (GIes.arrays c) ms l = some (out, l') → Done c D (groups ms) l env out l'
  | [], l, env, out, l', _, _, hI, h => by cases h; exact Done.nil hI
  | m :: ms, l, env, out, l', hs, hm, hI, h => by
    rw [eachMsg] at h
    obtain ⟨⟨a1, l1⟩, h1, h⟩ := Option.bind_eq_some_iff.1 h
    obtain ⟨⟨a2, l2⟩, h2, h⟩ := Option.bind_eq_some_iff.1 h
    cases h
    have d1 := arrays_done hD m.ies (hs m (.head _)) (hm m (.head _)) hI h1
    obtain ⟨env1, hc1, hI1, hd1⟩ := d1.ok
    have d2 := eachMsg_done hD (fun x hx => hs x (.tail _ hx)) (fun x hx => hm x (.tail _ hx)) hI1 h2
    obtain ⟨env2, hc2, hI2, hd2⟩ := d2.ok
    have g12 := compile_grows hc2
    refine ⟨⟨env2, by rw [compile_append, hc1, Option.bind_some, hc2], hI2, ?_⟩, fun e he => d2.mono _ (d1.mono e he), ?_⟩
    · intro x hx
      rw [groups, List.flatMap_cons] at hx
      rcases List.mem_append.1 hx with hx | hx
      · exact (hd1 x hx).grows g12
      · exact hd2 x hx
    · intro x hx
      rw [groups, List.flatMap_cons] at hx
      rcases List.mem_append.1 hx with hx | hx
      · exact d2.mono _ (d1.listed x hx)
      · exact d2.listed x hx

theorem key_unique {l : Seen} (h : (l.map (·.1)).Nodup) {s a b} (ha : (s, a) ∈ l) (hb : (s, b) ∈ l) : a = b := by
  induction l with
  | nil => cases ha
  | cons e l ih =>
    rw [List.map_cons, List.nodup_cons] at h
    rcases List.mem_cons.1 ha with ha' | ha' <;> rcases List.mem_cons.1 hb with hb' | hb'
    · rw [← ha'] at hb'; cases hb'; rfl
    · exact absurd (List.mem_map.2 ⟨_, hb', by rw [← ha']⟩) h.1
    · exact absurd (List.mem_map.2 ⟨_, ha', by rw [← hb']⟩) h.1
    · exact ih h.2 ha' hb'

/-! ### When the generator gives up -/

/-- No two definitions share a name. -/
def NoClash (D : List (GOcc × GInfo × GIes)) : Prop :=
  ∀ o i n o' i' n', (o, i, n) ∈ D → (o', i', n') ∈ D → nameOf o i = nameOf o' i' → i.addr = i'.addr

/-- Seen names are those of definitions. -/
def SeenFrom (D : List (GOcc × GInfo × GIes)) (l : Seen) : Prop :=
  ∀ e ∈ l, ∃ x ∈ D, nameOf x.1 x.2.1 = e.1 ∧ e.2 = some x.2.1.addr

theorem arrays_some {c : GCfg} {D : List (GOcc × GInfo × GIes)} (hD : NoClash D) (g : GIes) : ∀ {l},
    ShortIn c g → (∀ x ∈ groupsIn g, x ∈ D) → SeenFrom D l →
    ∃ out l', g.arrays c l = some (out, l') ∧ SeenFrom D l' := by
  induction g with
  | nil => intro l _ _ h; exact ⟨_, _, rfl, h⟩
  | ie o i r ih => intro l hs hm h; exact ih hs.rest hm h
  | group o i n r ih1 ih2 =>
    intro l hs hm h
    have hx : (o, i, n) ∈ D := hm _ (List.mem_append_right _ (.head _))
    obtain ⟨a1, l1, e1, f1⟩ := ih1 hs.nested (fun x hx => hm x (List.mem_append_left _ hx)) h
    have key : ∃ b l2, seen l1 (i.tagName.getD o.name) (some i.addr) = some (b, l2) ∧ SeenFrom D l2 := by
      unfold seen
      cases hf : l1.find? fun e => e.1 = i.tagName.getD o.name with
      | some e =>
        have hmem := List.mem_of_find?_eq_some hf
        have hne := List.find?_some hf
        simp at hne
        obtain ⟨⟨o', i', n'⟩, hD', hn', ha'⟩ := f1 e hmem
        dsimp only at hn' ha'
        have : i.addr = i'.addr := hD _ _ _ _ _ _ hx hD' (by rw [hn', hne]; rfl)
        refine ⟨true, l1, ?_, f1⟩
        dsimp only
        rw [if_neg (by rw [ha', this]; simp)]
      | none =>
        refine ⟨false, _, rfl, ?_⟩
        intro e he
        rcases List.mem_cons.1 he with he' | he'
        · refine ⟨(o, i, n), hx, ?_, ?_⟩
          · rw [he']
            exact (List.take_of_length_le (by have := hs.name o i hs.mem; change (nameOf o i).length ≤ 255; omega)).symm
          · rw [he']
        · exact f1 e he'
    obtain ⟨b, l2, e2, f2⟩ := key
    obtain ⟨a2, l3, e3, f3⟩ := ih2 hs.rest' (fun x hx => hm x (List.mem_append_right _ (.tail _ hx))) f2
    exact ⟨a1 ++ ((if b then [] else [⟨arrayName o i, n.entries c (c.decodedType o i) []⟩]) ++ a2), l3,
      by simp only [GIes.arrays, e1, e2, e3, Option.bind_some], f3⟩

theorem eachMsg_some {c : GCfg} {D : List (GOcc × GInfo × GIes)} (hD : NoClash D) : ∀ {ms l},
    (∀ m ∈ ms, ShortIn c m.ies) → (∀ m ∈ ms, ∀ x ∈ groupsIn m.ies, x ∈ D) → SeenFrom D l →
    ∃ out l', eachMsg (GIes.arrays c) ms l = some (out, l') ∧ SeenFrom D l'
  | [], l, _, _, h => ⟨_, _, rfl, h⟩
  | m :: ms, l, hs, hm, h => by
    obtain ⟨a1, l1, e1, f1⟩ := arrays_some hD m.ies (hs m (.head _)) (hm m (.head _)) h
    obtain ⟨a2, l2, e2, f2⟩ := eachMsg_some hD (fun x hx => hs x (.tail _ hx)) (fun x hx => hm x (.tail _ hx)) f1
    exact ⟨a1 ++ a2, l2, by simp only [eachMsg, e1, e2, Option.bind_some], f2⟩

/-! ### Names that are seen without a definition -/

/-- `seen(.., NULL)` never exits if it is only called so. -/
theorem seen_none {l : Seen} (h : ∀ e ∈ l, e.2 = none) (s : Text) :
    ∃ b l', seen l s none = some (b, l') ∧ ∀ e ∈ l', e.2 = none := by
  unfold seen
  cases hf : l.find? fun e => e.1 = s with
  | some e =>
    refine ⟨true, l, ?_, h⟩
    dsimp only
    rw [if_neg (by rw [h e (List.mem_of_find?_eq_some hf)]; simp)]
  | none =>
    refine ⟨false, _, rfl, ?_⟩
    intro e he
    rcases List.mem_cons.1 he with he' | he'
    · rw [he']
    · exact h e he'

/-- What was declared of functions: `l` are the names seen. -/
structure ExtInv (l : Seen) (out : List Text) : Prop where
  none : ∀ e ∈ l, e.2 = none
  same : ∀ s, s ∈ l.map (·.1) ↔ s ∈ out
  once : out.Nodup

theorem externs_done (g : GIes) : ∀ {l done}, (∀ o i, (o, i) ∈ leavesIn g → (suffixOf o i).length ≤ 255) → ExtInv l done →
    ∃ out l', g.externs l = some (out, l') ∧ ExtInv l' (done ++ out) ∧ ∀ o i, (o, i) ∈ leavesIn g → suffixOf o i ∈ done ++ out := by
  induction g with
  | nil => intro l done _ h; exact ⟨[], l, rfl, by simpa using h, by simp [leavesIn]⟩
  | ie o i r ih =>
    intro l done hs h
    obtain ⟨b, l1, e1, f1⟩ := seen_none h.none (suffixOf o i)
    have hlen := hs o i (.head _)
    have key : ExtInv l1 (done ++ if b then [] else [suffixOf o i]) ∧ suffixOf o i ∈ done ++ if b then [] else [suffixOf o i] := by
      rcases seen_cases e1 with ⟨rfl, rfl, hmem⟩ | ⟨rfl, rfl, hnew⟩
      · refine ⟨by simpa using h, ?_⟩
        simp
        exact (h.same _).1 (List.mem_map.2 ⟨_, hmem, rfl⟩)
      · rw [List.take_of_length_le hlen] at f1
        refine ⟨⟨?_, ?_, ?_⟩, by simp⟩
        · rw [List.take_of_length_le hlen]; exact f1
        · intro s
          have := h.same s
          simp only [List.map_cons, List.take_of_length_le hlen, List.mem_cons, this, Bool.false_eq_true, if_false,
            List.mem_append, List.not_mem_nil, or_false]
          exact Or.comm
        · simp only [Bool.false_eq_true, if_false]
          rw [List.nodup_append]
          refine ⟨h.once, by simp, ?_⟩
          intro a ha b hb
          simp at hb
          subst hb
          rintro rfl
          obtain ⟨e, he, hen⟩ := List.mem_map.1 ((h.same _).2 ha)
          exact hnew e he hen
    obtain ⟨out, l', e2, f2, g2⟩ := ih (fun o' i' ho => hs o' i' (.tail _ ho)) key.1
    refine ⟨(if b then [] else [suffixOf o i]) ++ out, l', ?_, ?_, ?_⟩
    · simp only [GIes.externs, e1, e2, Option.bind_some]
    · rw [← List.append_assoc]; exact f2
    · intro o' i' ho
      rw [← List.append_assoc]
      rcases List.mem_cons.1 ho with ho' | ho'
      · cases ho'; exact List.mem_append_left _ key.2
      · exact g2 o' i' ho'
  | group o i n r ih1 ih2 =>
    intro l done hs h
    obtain ⟨o1, l1, e1, f1, g1⟩ := ih1 (fun o' i' ho => hs o' i' (List.mem_append_left _ ho)) h
    obtain ⟨o2, l2, e2, f2, g2⟩ := ih2 (fun o' i' ho => hs o' i' (List.mem_append_right _ ho)) f1
    refine ⟨o1 ++ o2, l2, ?_, ?_, ?_⟩
    · simp only [GIes.externs, e1, e2, Option.bind_some]
    · rw [← List.append_assoc]; exact f2
    · intro o' i' ho
      rw [← List.append_assoc]
      rcases List.mem_append.1 ho with ho | ho
      · exact List.mem_append_left _ (g1 o' i' ho)
      · exact g2 o' i' ho

theorem eachMsg_externs : ∀ {ms l done}, (∀ m ∈ ms, ∀ o i, (o, i) ∈ leavesIn m.ies → (suffixOf o i).length ≤ 255) →
    ExtInv l done → ∃ out l', eachMsg GIes.externs ms l = some (out, l') ∧ ExtInv l' (done ++ out) ∧
      ∀ o i, (o, i) ∈ leaves ms → suffixOf o i ∈ done ++ out
  | [], l, done, _, h => ⟨[], l, rfl, by simpa using h, by simp [leaves]⟩
  | m :: ms, l, done, hs, h => by
    obtain ⟨o1, l1, e1, f1, g1⟩ := externs_done m.ies (hs m (.head _)) h
    obtain ⟨o2, l2, e2, f2, g2⟩ := eachMsg_externs (fun x hx => hs x (.tail _ hx)) f1
    refine ⟨o1 ++ o2, l2, by simp only [eachMsg, e1, e2, Option.bind_some], by rw [← List.append_assoc]; exact f2, ?_⟩
    intro o i ho
    rw [leaves, List.flatMap_cons] at ho
    rw [← List.append_assoc]
    rcases List.mem_append.1 ho with ho | ho
    · exact List.mem_append_left _ (g1 o i ho)
    · exact g2 o i ho

end Verif
