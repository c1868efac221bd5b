/-
C77: the generated coding tables; C78: the generated structs.
-/
import Verif.GenLemmas
import Verif.GenPfcp

namespace Verif
open Spec

/-! ### Structs -/

theorem membersOf_cons (s : CStruct) (env : List CStruct) (t : Text) :
    membersOf (s :: env) t = if s.type = t then some s.members else membersOf env t := by
  unfold membersOf
  rw [List.find?_cons]
  by_cases h : s.type = t <;> simp [h]

theorem compileH_spec : ∀ {ss env env'}, compileH ss env = some env' →
    (∀ t m, membersOf env t = some m → membersOf env' t = some m) ∧
    ∀ s ∈ ss, membersOf env' s.type = some s.members
  | [], env, env', h => by cases h; exact ⟨fun _ _ h => h, by simp⟩
  | s :: ss, env, env', h => by
    rw [compileH] at h
    split at h
    · cases h
    · rename_i hn
      obtain ⟨h1, h2⟩ := compileH_spec h
      simp only [Bool.or_eq_true, List.any_eq_true, decide_eq_true_eq, not_or, not_exists, not_and] at hn
      refine ⟨?_, ?_⟩
      · intro t m hm
        refine h1 t m ?_
        rw [membersOf_cons]
        split
        · rename_i heq
          exfalso
          unfold membersOf at hm
          cases hf : env.find? (fun s => s.type = t) with
          | none => rw [hf] at hm; cases hm
          | some x =>
            have := List.find?_some hf
            simp at this
            exact hn.1 x (List.mem_of_find?_eq_some hf) (by rw [this, heq])
        · exact hm
      · intro x hx
        rcases List.mem_cons.1 hx with hx' | hx'
        · rw [hx']
          exact h1 _ _ (by rw [membersOf_cons]; exact if_pos rfl)
        · exact h2 x hx'

/-- What the list of seen types and the structs written so far have to do with each other. -/
structure StructInv (c : GCfg) (D : List (GOcc × GInfo × GIes)) (l : Seen) (done : List CStruct) : Prop where
  none : ∀ e ∈ l, e.2 = none
  known : ∀ e ∈ l, ∃ s ∈ done, s.type = e.1
  from_ : ∀ s ∈ done, ∃ x ∈ D, s = ⟨typeOf c x.1 x.2.1, x.2.2.members c⟩

theorem structs_done {c : GCfg} {D : List (GOcc × GInfo × GIes)} (g : GIes) : ∀ {l done out l'}, ShortIn c g →
    (∀ x ∈ groupsIn g, x ∈ D) → StructInv c D l done → g.structs c l = some (out, l') →
    StructInv c D l' (done ++ out) ∧ ∀ x ∈ groupsIn g, ∃ s ∈ done ++ out, s.type = typeOf c x.1 x.2.1 := by
  induction g with
  | nil => intro l done out l' _ _ h he; cases he; exact ⟨by simpa using h, by simp [groupsIn]⟩
  | ie o i r ih => intro l done out l' hs hm h he; exact ih hs.rest hm h he
  | group o i n r ih1 ih2 =>
    intro l done out l' hs hm h he
    rw [GIes.structs] at he
    obtain ⟨⟨a1, l1⟩, h1, he⟩ := Option.bind_eq_some_iff.1 he
    obtain ⟨⟨b, l2⟩, h2, he⟩ := Option.bind_eq_some_iff.1 he
    obtain ⟨⟨a2, l3⟩, h3, he⟩ := Option.bind_eq_some_iff.1 he
    cases he
    have hx : (o, i, n) ∈ D := hm _ (List.mem_append_right _ (.head _))
    obtain ⟨i1, g1⟩ := ih1 hs.nested (fun x hx => hm x (List.mem_append_left _ hx)) h h1
    have key : ∀ mid, mid = (if b then [] else [(⟨c.decodedType o i, n.members c⟩ : CStruct)]) →
        StructInv c D l2 ((done ++ a1) ++ mid) ∧ ∃ s ∈ (done ++ a1) ++ mid, s.type = typeOf c o i := by
      intro mid hmid
      rw [hs.here'] at h2 hmid
      rcases seen_cases h2 with ⟨rfl, rfl, hmem⟩ | ⟨rfl, rfl, hnew⟩
      · rw [if_pos rfl] at hmid
        subst hmid
        rw [List.append_nil]
        exact ⟨i1, i1.known _ hmem⟩
      · rw [if_neg (by simp)] at hmid
        subst hmid
        have hlen := hs.type o i hs.mem
        rw [List.take_of_length_le hlen]
        refine ⟨⟨?_, ?_, ?_⟩, ⟨typeOf c o i, n.members c⟩, List.mem_append_right _ (.head _), rfl⟩
        · intro e he
          rcases List.mem_cons.1 he with he' | he'
          · rw [he']
          · exact i1.none e he'
        · intro e he
          rcases List.mem_cons.1 he with he' | he'
          · exact ⟨_, List.mem_append_right _ (.head _), by rw [he']⟩
          · obtain ⟨s, h1, h2⟩ := i1.known e he'
            exact ⟨s, List.mem_append_left _ h1, h2⟩
        · intro s hs'
          rcases List.mem_append.1 hs' with hs' | hs'
          · exact i1.from_ s hs'
          · simp at hs'
            exact ⟨_, hx, hs'⟩
    obtain ⟨i2, g2⟩ := key _ rfl
    obtain ⟨i3, g3⟩ := ih2 hs.rest' (fun x hx => hm x (List.mem_append_right _ (.tail _ hx))) i2 h3
    have assoc : ∀ mid : List CStruct, done ++ (a1 ++ (mid ++ a2)) = done ++ a1 ++ mid ++ a2 := by simp
    rw [assoc]
    refine ⟨i3, ?_⟩
    intro x hxg
    rcases List.mem_append.1 hxg with hxg | hxg
    · obtain ⟨s, hs1, hs2⟩ := g1 x hxg
      exact ⟨s, List.mem_append_left _ (List.mem_append_left _ hs1), hs2⟩
    · rcases List.mem_cons.1 hxg with hxg' | hxg'
      · obtain ⟨s, hs1, hs2⟩ := g2
        rw [hxg']
        exact ⟨s, List.mem_append_left _ hs1, hs2⟩
      · exact g3 x hxg'

theorem eachMsg_structs {c : GCfg} {D : List (GOcc × GInfo × GIes)} : ∀ {ms l done out l'},
    (∀ m ∈ ms, ShortIn c m.ies) → (∀ m ∈ ms, ∀ x ∈ groupsIn m.ies, x ∈ D) → StructInv c D l done →
    eachMsg (GIes.structs c) ms l = some (out, l') →
    StructInv c D l' (done ++ out) ∧ ∀ x ∈ groups ms, ∃ s ∈ done ++ out, s.type = typeOf c x.1 x.2.1
  | [], l, done, out, l', _, _, hI, h => by cases h; exact ⟨by simpa using hI, by simp [groups]⟩
  | m :: ms, l, done, out, l', hs, hm, hI, h => by
    rw [eachMsg] at h
    obtain ⟨⟨a1, l1⟩, h1, h⟩ := Option.bind_eq_some_iff.1 h
    obtain ⟨⟨a2, l2⟩, h2, h⟩ := Option.bind_eq_some_iff.1 h
    cases h
    obtain ⟨i1, g1⟩ := structs_done m.ies (hs m (.head _)) (hm m (.head _)) hI h1
    obtain ⟨i2, g2⟩ := eachMsg_structs (fun x hx => hs x (.tail _ hx)) (fun x hx => hm x (.tail _ hx)) i1 h2
    rw [← List.append_assoc]
    refine ⟨i2, ?_⟩
    intro x hx
    rw [groups, List.flatMap_cons] at hx
    rcases List.mem_append.1 hx with hx | hx
    · obtain ⟨s, hs1, hs2⟩ := g1 x hx
      exact ⟨s, List.mem_append_left _ hs1, hs2⟩
    · exact g2 x hx

/-- The struct of an IE with nested IEs has the members for these. -/
def Struct_ (c : GCfg) (env : List CStruct) (x : GOcc × GInfo × GIes) : Prop :=
  membersOf env (typeOf c x.1 x.2.1) = some (x.2.2.members c)

theorem room_tableOf {c : GCfg} {env : List CStruct} (g : GIes) : ∀ {obj sub ms}, ShortIn c g →
    (∀ x ∈ groupsIn g, Struct_ c env x) →
    (∀ h : CHead, h.obj = obj → h.sub = sub → structFor c env h = some ms) → (∀ m ∈ g.members c, m ∈ ms) →
    Room c env (tableOf c obj sub g) := by
  induction g with
  | nil => intros; exact trivial
  | ie o i r ih =>
    intro obj sub ms hs hg hst hm
    refine ⟨⟨ms, ⟨o.optional, c.decodedType o i, o.name, o.multi⟩, hst _ rfl rfl, hm _ (.head _), rfl, rfl, rfl, by simp⟩, ?_⟩
    exact ih hs.rest hg hst fun m hm' => hm m (.tail _ hm')
  | group o i n r ih1 ih2 =>
    intro obj sub ms hs hg hst hm
    refine ⟨⟨ms, ⟨o.optional, c.decodedType o i, o.name, o.multi⟩, hst _ rfl rfl, hm _ (.head _), rfl, rfl, rfl, ?_⟩, ?_, ?_⟩
    · intro t ht
      dsimp only
      rw [hs.here']
      cases n with
      | nil => cases ht
      | ie _ _ _ => cases ht; rfl
      | group _ _ _ _ => cases ht; rfl
    · refine ih1 hs.nested (fun x hx => hg x (List.mem_append_left _ hx)) (ms := n.members c) ?_ fun m hm' => hm'
      intro h h1 h2
      rw [structFor, if_pos h2, h1]
      exact hg (o, i, n) (List.mem_append_right _ (.head _))
    · exact ih2 hs.rest' (fun x hx => hg x (List.mem_append_right _ (.tail _ hx))) hst fun m hm' => hm m (.tail _ hm')

namespace Props

/-! ### C77: tables -/

theorem writeC_some {c ms g} (h : writeC c ms = some g) :
    ∃ a l, eachMsg (GIes.arrays c) ms [] = some (a, l) ∧ g.arrays = a ++ ms.map (msgArray c) ∧
      g.msgs = ms.map (fun m => (c.messageTypePrefix ++ toUpper m.name, msgArrayName m)) ∧
      ∃ l', eachMsg GIes.externs ms [] = some (g.externs, l') := by
  obtain ⟨⟨e, l'⟩, h1, h⟩ := Option.bind_eq_some_iff.1 h
  obtain ⟨⟨a, l⟩, h2, h⟩ := Option.bind_eq_some_iff.1 h
  cases h
  exact ⟨a, l, h2, rfl, rfl, l', h1⟩

theorem groups_mem {ms : List GMsg} : ∀ m ∈ ms, ∀ x ∈ groupsIn m.ies, x ∈ groups ms :=
  fun m hm _ hx => List.mem_flatMap.2 ⟨m, hm, hx⟩

theorem msgs_compile {c : GCfg} {ms0 : List GMsg} : ∀ {ms : List GMsg} {env env'}, (∀ m ∈ ms, m ∈ ms0) → Short c ms0 →
    (∀ x ∈ groups ms0, Declared c env x) → compile (ms.map (msgArray c)) env = some env' →
    ∀ m ∈ ms, env'.get (msgArrayName m) = some (msgTable c m)
  | [], _, _, _, _, _, _ => by intro m hm; cases hm
  | m :: ms, env, env', hm, hs, hd, h => by
    rw [List.map_cons, compile] at h
    split at h
    · cases h
    rename_i hn
    have hr := resolve_entries (obj := c.unionType) (sub := m.name) (hs.inMsg (hm m (.head _)))
      (fun x hx => hd x (groups_mem m (hm m (.head _)) x hx))
    simp only [msgArray] at h hn
    rw [hr, Option.bind_some] at h
    have hg : Extends env ((msgArrayName m, tableOf c c.unionType m.name m.ies) :: env) := .cons (by simpa using hn)
    intro x hx
    rcases List.mem_cons.1 hx with hx' | hx'
    · rw [hx']
      refine compile_grows h _ _ ?_
      rw [CEnv.get_cons]
      exact if_pos rfl
    · exact msgs_compile (fun y hy => hm y (.tail _ hy)) hs (fun y hy => (hd y hy).grows hg) h x hx'

/-- C77: if the generator and the C compiler accept a protocol definition, then the table of each message is the one
that the definition stands for. -/
theorem C77_tables {c : GCfg} {ms : List GMsg} {g env} (hi : Identified ms) (hs : Short c ms) (hg : writeC c ms = some g)
    (hc : compile g.arrays [] = some env) :
    ∀ m ∈ ms, env.get (lit "ies_in_msg_" ++ m.name) = some (msgTable c m) := by
  obtain ⟨a, l, h1, h2, -⟩ := writeC_some hg
  obtain ⟨⟨env1, hc1, -, hd1⟩, -, -⟩ := eachMsg_done hi (fun m hm => hs.inMsg hm) groups_mem (.nil c _) h1
  rw [h2, compile_append, hc1, Option.bind_some] at hc
  exact msgs_compile (fun _ h => h) hs hd1 hc

/-- C77: PROTO_get_msg_coding() returns the table of the message with the type, whatever the values of the constants,
and NULL if there is none. -/
theorem C77_get_msg_coding {c : GCfg} {ms : List GMsg} {g env} (hi : Identified ms) (hs : Short c ms)
    (hg : writeC c ms = some g) (hc : compile g.arrays [] = some env) (values : Text → Option Nat) (type : Nat) :
    (∀ m ∈ ms, values (c.messageTypePrefix ++ capitals m.name) = some type →
      (∀ m' ∈ ms, values (c.messageTypePrefix ++ capitals m'.name) = some type → m' = m) →
      g.getMsgCoding values env type = some (msgTable c m)) ∧
    ((∀ m ∈ ms, values (c.messageTypePrefix ++ capitals m.name) ≠ some type) → g.getMsgCoding values env type = none) := by
  obtain ⟨-, -, -, -, hm, -⟩ := writeC_some hg
  have ht := C77_tables hi hs hg hc
  refine ⟨?_, ?_⟩
  · intro m hmm hv hu
    rw [GenC.getMsgCoding, hm]
    cases hf : (ms.map fun m => (c.messageTypePrefix ++ toUpper m.name, msgArrayName m)).reverse.find?
      (fun d => values d.1 = some type) with
    | none =>
      have := List.find?_eq_none.1 hf (c.messageTypePrefix ++ toUpper m.name, msgArrayName m)
        (List.mem_reverse.2 (List.mem_map.2 ⟨m, hmm, rfl⟩))
      rw [toUpper_short (hs.msg m hmm).2] at this
      simp [hv] at this
    | some d =>
      obtain ⟨m', hm', rfl⟩ := List.mem_map.1 (List.mem_reverse.1 (List.mem_of_find?_eq_some hf))
      have h2 := List.find?_some hf
      rw [toUpper_short (hs.msg m' hm').2] at h2
      simp at h2
      rw [hu m' hm' h2]
      exact ht m hmm
  · intro hv
    rw [GenC.getMsgCoding, hm]
    cases hf : (ms.map fun m => (c.messageTypePrefix ++ toUpper m.name, msgArrayName m)).reverse.find?
      (fun d => values d.1 = some type) with
    | none => rfl
    | some d =>
      obtain ⟨m', hm', rfl⟩ := List.mem_map.1 (List.mem_reverse.1 (List.mem_of_find?_eq_some hf))
      have h2 := List.find?_some hf
      rw [toUpper_short (hs.msg m' hm').2] at h2
      simp at h2
      exact absurd h2 (hv m' hm')

/-- C77: the generator exits with an error if and only if two definitions of IEs with nested IEs have the same name. -/
theorem C77_rejects {c : GCfg} {ms : List GMsg} (hi : Identified ms) (hs : Short c ms) :
    writeC c ms = none ↔
      ∃ o i n o' i' n', (o, i, n) ∈ groups ms ∧ (o', i', n') ∈ groups ms ∧ nameOf o i = nameOf o' i' ∧ i.addr ≠ i'.addr := by
  have hleaf : ∀ m ∈ ms, ∀ o i, (o, i) ∈ leavesIn m.ies → (suffixOf o i).length ≤ 255 := by
    intro m hm o i ho
    exact (hs.inMsg hm).func o i (leaves_occs ho)
  constructor
  · intro h
    by_cases hno : NoClash (groups ms)
    · exfalso
      obtain ⟨e, l1, h1, -⟩ := eachMsg_externs (l := []) (done := []) hleaf ⟨by simp, by simp, by simp⟩
      obtain ⟨a, l2, h2, -⟩ := eachMsg_some (c := c) hno (fun m hm => hs.inMsg hm) groups_mem (l := []) (by intro e he; cases he)
      simp only [writeC, h1, h2, Option.bind_some] at h
      cases h
    · simp only [NoClash, Classical.not_forall] at hno
      obtain ⟨o, i, n, o', i', n', h1, h2, h3, h4⟩ := hno
      exact ⟨o, i, n, o', i', n', h1, h2, h3, h4⟩
  · rintro ⟨o, i, n, o', i', n', h1, h2, h3, h4⟩
    cases hw : writeC c ms with
    | none => rfl
    | some g =>
      exfalso
      obtain ⟨a, l, e1, -⟩ := writeC_some hw
      have hd := eachMsg_done hi (fun m hm => hs.inMsg hm) groups_mem (.nil c _) e1
      obtain ⟨env, -, hI, -⟩ := hd.ok
      have m1 := hd.listed _ h1
      have m2 := hd.listed _ h2
      dsimp only at m1 m2
      rw [h3] at m1
      have := key_unique hI.once m1 m2
      simp at this
      exact h4 this

/-- C77: what the generator writes compiles, as far as arrays are concerned, if messages have different names, and no IE
with nested IEs is called "msg_" and the name of a message. -/
theorem C77_compiles {c : GCfg} {ms : List GMsg} {g} (hi : Identified ms) (hs : Short c ms) (hg : writeC c ms = some g)
    (hn : (ms.map (·.name)).Nodup)
    (hm : ∀ m ∈ ms, ∀ o i n, (o, i, n) ∈ groups ms → nameOf o i ≠ lit "msg_" ++ m.name) :
    ∃ env, compile g.arrays [] = some env := by
  obtain ⟨a, l, h1, h2, -⟩ := writeC_some hg
  obtain ⟨⟨env1, hc1, hI1, hd1⟩, -, -⟩ := eachMsg_done hi (fun m hm => hs.inMsg hm) groups_mem (.nil c _) h1
  have hfree : ∀ m ∈ ms, env1.get (msgArrayName m) = none := by
    intro m hmm
    cases he : env1.get (msgArrayName m) with
    | none => rfl
    | some t =>
      obtain ⟨e, hel, hen⟩ := hI1.only (lit "msg_" ++ m.name) (by
        have : lit "ies_in_" ++ (lit "msg_" ++ m.name) = msgArrayName m := by
          rw [← List.append_assoc]; rfl
        rw [this, he]; rfl)
      obtain ⟨⟨o, i, n⟩, hx, hxn, -⟩ := hI1.known e hel
      exact absurd (hxn.trans hen) (hm m hmm o i n hx)
  rw [h2, compile_append, hc1, Option.bind_some]
  have key : ∀ (l : List GMsg) (env : CEnv), (∀ m ∈ l, m ∈ ms) → (l.map (·.name)).Nodup → (∀ x ∈ groups ms, Declared c env x) →
      (∀ m ∈ l, env.get (msgArrayName m) = none) → ∃ env', compile (l.map (msgArray c)) env = some env' := by
    intro l
    induction l with
    | nil => intro env _ _ _ _; exact ⟨env, rfl⟩
    | cons m l ih =>
      intro env hl hnd hd hf
      have hfm := hf m (.head _)
      have hr := resolve_entries (obj := c.unionType) (sub := m.name) (hs.inMsg (hl m (.head _)))
        (fun x hx => hd x (groups_mem m (hl m (.head _)) x hx))
      have hg : Extends env ((msgArrayName m, tableOf c c.unionType m.name m.ies) :: env) := .cons hfm
      rw [List.map_cons, List.nodup_cons] at hnd
      obtain ⟨env', he⟩ := ih ((msgArrayName m, tableOf c c.unionType m.name m.ies) :: env)
        (fun y hy => hl y (.tail _ hy)) hnd.2 (fun x hx => (hd x hx).grows hg) (by
          intro y hy
          rw [CEnv.get_cons]
          split
          · rename_i heq
            exfalso
            have : m.name = y.name := List.append_cancel_left (as := lit "ies_in_msg_") heq
            exact hnd.1 (List.mem_map.2 ⟨y, hy, this.symm⟩)
          · exact hf y (.tail _ hy))
      refine ⟨env', ?_⟩
      rw [List.map_cons, compile, if_neg (by simp [msgArray, hfm])]
      simp only [msgArray, hr, Option.bind_some]
      exact he
  exact key ms env1 (fun _ h => h) hn hd1 hfree

/-- C77: every function that a table refers to is declared, and once. -/
theorem C77_functions {c : GCfg} {ms : List GMsg} {g} (hs : Short c ms) (hg : writeC c ms = some g) :
    (∀ o i, (o, i) ∈ leaves ms → i.decEnc.getD (nameOf o i) ∈ g.externs) ∧ g.externs.Nodup := by
  obtain ⟨-, -, -, -, -, l', h1⟩ := writeC_some hg
  have hleaf : ∀ m ∈ ms, ∀ o i, (o, i) ∈ leavesIn m.ies → (suffixOf o i).length ≤ 255 := by
    intro m hm o i ho
    exact (hs.inMsg hm).func o i (leaves_occs ho)
  obtain ⟨e, l1, h2, hI, hall⟩ := eachMsg_externs (l := []) (done := []) hleaf ⟨by simp, by simp, by simp⟩
  rw [h1] at h2
  cases h2
  exact ⟨hall, hI.once⟩

/-! ### C78: structs -/

theorem structs_of {c : GCfg} {ms : List GMsg} {ss env} (hs : Short c ms) (hk : Consistent c ms) (hw : writeH c ms = some ss)
    (hc : compileH ss [] = some env) :
    (∀ x ∈ groups ms, Struct_ c env x) ∧ ∀ m ∈ ms, membersOf env (c.msgType m.name) = some (m.ies.members c) := by
  obtain ⟨⟨s, l⟩, h1, h⟩ := Option.bind_eq_some_iff.1 hw
  cases h
  obtain ⟨i1, g1⟩ := eachMsg_structs (D := groups ms) (done := []) (fun m hm => hs.inMsg hm) groups_mem
    ⟨by simp, by simp, by simp⟩ h1
  rw [List.nil_append] at i1 g1
  obtain ⟨-, h2⟩ := compileH_spec hc
  refine ⟨?_, ?_⟩
  · rintro ⟨o, i, n⟩ hx
    obtain ⟨st, hst, hty⟩ := g1 _ hx
    obtain ⟨⟨o', i', n'⟩, hx', rfl⟩ := i1.from_ st hst
    dsimp only at hty
    have := hk _ _ _ _ _ _ hx hx' hty.symm
    subst this
    have h3 := h2 _ (List.mem_append_left _ hst)
    dsimp only at h3
    rw [hty] at h3
    exact h3
  · intro m hm
    exact h2 ⟨c.msgType m.name, m.ies.members c⟩ (List.mem_append_right _ (List.mem_map.2 ⟨m, hm, rfl⟩))

/-- C78, if types are used consistently (see the counterexample): whatever the tables make the decoder write has a place in
the structs. -/
theorem C78_room_partial {c : GCfg} {ms : List GMsg} {ss env} (hs : Short c ms) (hk : Consistent c ms)
    (hw : writeH c ms = some ss) (hc : compileH ss [] = some env) : ∀ m ∈ ms, Room c env (msgTable c m) := by
  obtain ⟨h1, h2⟩ := structs_of hs hk hw hc
  intro m hm
  refine room_tableOf m.ies (ms := m.ies.members c) (hs.inMsg hm) (fun x hx => h1 x (groups_mem m hm x hx)) ?_ fun _ h => h
  intro h ho hsub
  rw [structFor, if_neg (by rw [hsub]; exact (hs.msg m hm).1), if_pos ho, hsub]
  exact h2 m hm

end Props
end Verif
