/-
Use counts: every message that was passed to osmo_pfcp_endpoint_tx() holds its use counts until it is
deallocated.
-/
import Verif.EndpointRx
import Verif.SpecPeer

namespace Verif

/-! ### Use counts as such -/

theorem releaseUses_ok : ∀ {us : List (Nat × Nat)} {ep ep' : Ep}, ep.releaseUses us = .ok ep' →
    ep' = { ep with use := fun u => ep.use u - us.count u } ∧ ∀ u, us.count u ≤ ep.use u
  | [], ep, ep', h => by
    cases h
    exact ⟨by simp, by simp⟩
  | v :: us, ep, ep', h => by
    unfold Ep.releaseUses at h
    split at h
    · cases h
    · rename_i hv
      obtain ⟨h1, h2⟩ := releaseUses_ok h
      constructor
      · rw [h1]
        congr 1
        funext u
        dsimp only
        rw [List.count_cons]
        by_cases hu : u = v
        · subst hu; simp; omega
        · rw [if_neg hu, if_neg (by simpa using fun h => hu h.symm)]; rfl
      · intro u
        have := h2 u
        dsimp only at this
        rw [List.count_cons]
        by_cases hu : u = v
        · subst hu; simp at this ⊢; omega
        · rw [if_neg hu] at this; rw [if_neg (by simpa using fun h => hu h.symm)]; exact this

theorem releaseUses_total : ∀ {us : List (Nat × Nat)} {ep : Ep}, (∀ u, us.count u ≤ ep.use u) →
    ∃ ep', ep.releaseUses us = .ok ep'
  | [], ep, _ => ⟨ep, rfl⟩
  | v :: us, ep, h => by
    unfold Ep.releaseUses
    have hv := h v
    rw [List.count_cons] at hv
    rw [if_neg (by simp at hv; omega)]
    refine releaseUses_total fun u => ?_
    have := h u
    rw [List.count_cons] at this
    by_cases hu : u = v
    · subst hu; simp at this ⊢; omega
    · dsimp only; rw [if_neg hu]; rw [if_neg (by simpa using fun h => hu h.symm)] at this; exact this

/-! ### The messages that live -/

/-- Events that are neither the beginning nor the end of a message, nor matter for its context. -/
def dull : Event → Bool
  | .passed .. => false
  | .freed _ => false
  | .returned _ none => false
  | .invalidated _ => false
  | _ => true

theorem live_dull {e : Event} (h : dull e = true) (l) : live (e :: l) = live l := by
  cases e <;> first | rfl | cases h

theorem returnedIn_iff {id : Nat} : ∀ {l : List Event}, returnedIn id l = true ↔ .returned id none ∈ l
  | [] => by simp [returnedIn]
  | e :: l => by
    cases e with
    | returned i rc =>
      cases rc with
      | none =>
        simp only [returnedIn, Bool.or_eq_true, decide_eq_true_eq, returnedIn_iff (l := l), List.mem_cons, Event.returned.injEq, and_true]
        exact or_congr_left ⟨Eq.symm, Eq.symm⟩
      | some rc => simp [returnedIn, returnedIn_iff (l := l)]
    | _ => simp [returnedIn, returnedIn_iff (l := l)]

/-- Events that take nothing from contexts. -/
def keeping : Event → Bool
  | .invalidated _ => false
  | _ => true

theorem dull_keeping {e : Event} (h : dull e = true) : keeping e = true := by
  cases e <;> first | rfl | cases h

theorem ctxAfter_keeping {id : Nat} {c : Ctx} : ∀ {l : List Event}, (∀ e ∈ l, keeping e = true) → ∀ log : List Event,
    ctxAfter id c (l ++ log) = ctxAfter id c log
  | [], _, _ => rfl
  | e :: l, h, log => by
    have h1 := h e (.head _)
    have h2 := ctxAfter_keeping (id := id) (c := c) (fun x hx => h x (.tail _ hx)) log
    cases e <;> first | exact h2 | cases h1

theorem ctxAfter_new {id : Nat} {c : Ctx} : ∀ {l : List Event}, returnedIn id l = false → ctxAfter id c l = c
  | [], _ => rfl
  | e :: l, h => by
    have ih := ctxAfter_new (id := id) (c := c) (l := l)
    cases e with
    | returned i rc =>
      cases rc with
      | none => simp [returnedIn] at h; exact ih h.2
      | some _ => exact ih h
    | invalidated fi =>
      have h' : returnedIn id l = false := h
      simp [ctxAfter, h', ih h']
    | _ => exact ih h

theorem without_count (fi : Nat) (c : Ctx) (u) : (c.without fi).uses.count u ≤ c.uses.count u := by
  simp only [Ctx.without, Ctx.uses, List.count_append]
  have h1 : (if c.peerFi = some fi then none else c.peerUse).toList.count u ≤ c.peerUse.toList.count u := by split <;> simp
  have h2 : (if c.sessionFi = some fi then none else c.sessionUse).toList.count u ≤ c.sessionUse.toList.count u := by split <;> simp
  omega

theorem ctxAfter_count (id : Nat) (c : Ctx) (u) : ∀ l : List Event, (ctxAfter id c l).uses.count u ≤ c.uses.count u
  | [] => Nat.le_refl _
  | e :: l => by
    have ih := ctxAfter_count id c u l
    cases e with
    | invalidated fi =>
      simp only [ctxAfter]
      split
      · exact Nat.le_trans (without_count _ _ _) ih
      · exact ih
    | _ => exact ih

theorem lostUses_dull {u} : ∀ {l : List Event}, (∀ e ∈ l, dull e = true) → ∀ log : List Event, lostUses u (l ++ log) = lostUses u log
  | [], _, _ => rfl
  | e :: l, h, log => by
    have h1 := h e (.head _)
    have h2 := lostUses_dull (u := u) (fun x hx => h x (.tail _ hx)) log
    cases e <;> first | exact h2 | cases h1

theorem live_append {l : List Event} (h : ∀ e ∈ l, dull e = true) (log) : live (l ++ log) = live log := by
  induction l with
  | nil => rfl
  | cons e l ih =>
    rw [List.cons_append, live_dull (h e (.head _))]
    exact ih fun x hx => h x (.tail _ hx)

theorem live_passed {log : List Event} {x} (h : x ∈ live log) : ∃ n1 t1, .passed x.1 n1 t1 x.2 ∈ log := by
  induction log with
  | nil => cases h
  | cons e l ih =>
    have up : x ∈ live l → ∃ n1 t1, Event.passed x.1 n1 t1 x.2 ∈ e :: l := fun h => by
      obtain ⟨a, b, h⟩ := ih h
      exact ⟨a, b, .tail _ h⟩
    cases e with
    | passed id n1 t1 m =>
      simp only [live, List.mem_cons] at h
      rcases h with rfl | h
      · exact ⟨n1, t1, .head _⟩
      · exact up h
    | freed id => exact up (List.mem_filter.mp h).1
    | _ => exact up h

theorem sum_without {α : Type} (f : α → Nat) (id : Nat) (m : α) : ∀ {l : List (Nat × α)}, (l.map (·.1)).Nodup → (id, m) ∈ l →
    (l.map fun x => f x.2).sum = f m + ((l.filter fun x => x.1 ≠ id).map fun x => f x.2).sum
  | x :: l, hn, hm => by
    simp only [List.map_cons, List.nodup_cons] at hn
    rcases List.mem_cons.mp hm with rfl | hm
    · have : (l.filter fun x => x.1 ≠ id) = l := by
        apply List.filter_eq_self.mpr
        intro y hy
        have : y.1 ≠ id := fun h => hn.1 (List.mem_map.mpr ⟨y, hy, h⟩)
        simpa using this
      rw [List.filter_cons_of_neg (by simp), this]
      simp
    · have hx : x.1 ≠ id := fun h => hn.1 (List.mem_map.mpr ⟨_, hm, h.symm⟩)
      rw [List.filter_cons_of_pos (by simpa using hx)]
      simp only [List.map_cons, List.sum_cons]
      rw [sum_without f id m hn.2 hm]
      omega

theorem sum_only {α : Type} (f : α → Nat) (id : Nat) (m : α) : ∀ {l : List (Nat × α)}, (l.map (·.1)).Nodup → (id, m) ∈ l →
    ((l.filter fun x => x.1 = id).map fun x => f x.2).sum = f m
  | x :: l, hn, hm => by
    simp only [List.map_cons, List.nodup_cons] at hn
    rcases List.mem_cons.mp hm with rfl | hm
    · have : (l.filter fun x => x.1 = id) = [] := by
        apply List.filter_eq_nil_iff.mpr
        intro y hy h
        exact hn.1 (List.mem_map.mpr ⟨y, hy, by simpa using h⟩)
      rw [List.filter_cons_of_pos (by simp), this]
      simp
    · have hx : x.1 ≠ id := fun h => hn.1 (List.mem_map.mpr ⟨_, hm, h.symm⟩)
      rw [List.filter_cons_of_neg (by simpa using hx)]
      exact sum_only f id m hn.2 hm

/-! ### The invariant -/

/-- What the context of a queued message has become. -/
structure CtxRel (id : Nat) (log : List Event) (c c0 : Ctx) : Prop where
  peer : c.peerFi = c0.peerFi ∧ c.peerUse = c0.peerUse ∨
    (∃ fi, c0.peerFi = some fi ∧ .invalidated fi ∈ log) ∧ c.peerFi = none ∧ c.peerUse = none
  session : c.sessionFi = c0.sessionFi ∧ c.sessionUse = c0.sessionUse ∨
    (∃ fi, c0.sessionFi = some fi ∧ .invalidated fi ∈ log) ∧ c.sessionFi = none ∧ c.sessionUse = none
  respCb : c.respCb = c0.respCb
  now : c = ctxAfter id c0 log

theorem CtxRel.refl {id : Nat} {log} (hr : returnedIn id log = false) (c : Ctx) : CtxRel id log c c :=
  ⟨.inl ⟨rfl, rfl⟩, .inl ⟨rfl, rfl⟩, rfl, (ctxAfter_new hr).symm⟩

theorem CtxRel.mono {id : Nat} {log : List Event} {c c0} (h : CtxRel id log c c0) (l) (hl : ∀ e ∈ l, keeping e = true) :
    CtxRel id (l ++ log) c c0 := by
  refine ⟨?_, ?_, h.respCb, by rw [ctxAfter_keeping hl]; exact h.now⟩
  · rcases h.peer with h | ⟨⟨fi, h1, h2⟩, h3⟩
    · exact .inl h
    · exact .inr ⟨⟨fi, h1, List.mem_append_right _ h2⟩, h3⟩
  · rcases h.session with h | ⟨⟨fi, h1, h2⟩, h3⟩
    · exact .inl h
    · exact .inr ⟨⟨fi, h1, List.mem_append_right _ h2⟩, h3⟩

theorem invalidate_without (m : PMsg) (fi) : (msgInvalidateCtx m fi).ctx = m.ctx.without fi := by
  rcases m with ⟨_, _, _, _, _, _, _, ⟨a, b, c, d, e, f⟩, _⟩
  simp only [msgInvalidateCtx, Ctx.without]
  by_cases h1 : c = some fi <;> by_cases h2 : a = some fi <;> simp [h1, h2]

theorem CtxRel.invalidate {id : Nat} {log : List Event} {m : PMsg} {c0} (h : CtxRel id log m.ctx c0) (hr : returnedIn id log = true) (fi) :
    CtxRel id (.invalidated fi :: log) (msgInvalidateCtx m fi).ctx c0 := by
  have hn : m.ctx.without fi = ctxAfter id c0 (.invalidated fi :: log) := by
    simp [ctxAfter, hr, ← h.now]
  rw [invalidate_without]
  refine ⟨?_, ?_, h.respCb, hn⟩
  · simp only [Ctx.without]
    by_cases hf : m.ctx.peerFi = some fi
    · rw [if_pos hf, if_pos hf]
      refine .inr ⟨?_, rfl, rfl⟩
      rcases h.peer with ⟨h1, _⟩ | ⟨⟨fi', h1, h2⟩, _⟩
      · exact ⟨fi, h1 ▸ hf, .head _⟩
      · exact ⟨fi', h1, .tail _ h2⟩
    · rw [if_neg hf, if_neg hf]
      rcases h.peer with h1 | ⟨⟨fi', h1, h2⟩, h3⟩
      · exact .inl h1
      · exact .inr ⟨⟨fi', h1, .tail _ h2⟩, h3⟩
  · simp only [Ctx.without]
    by_cases hf : m.ctx.sessionFi = some fi
    · rw [if_pos hf, if_pos hf]
      refine .inr ⟨?_, rfl, rfl⟩
      rcases h.session with ⟨h1, _⟩ | ⟨⟨fi', h1, h2⟩, _⟩
      · exact ⟨fi, h1 ▸ hf, .head _⟩
      · exact ⟨fi', h1, .tail _ h2⟩
    · rw [if_neg hf, if_neg hf]
      rcases h.session with h1 | ⟨⟨fi', h1, h2⟩, h3⟩
      · exact .inl h1
      · exact .inr ⟨⟨fi', h1, .tail _ h2⟩, h3⟩

/-- An invalidation does not matter for messages that are not queued. -/
theorem CtxRel.invalidated {id : Nat} {log : List Event} {c c0} (h : CtxRel id log c c0) (hr : returnedIn id log = false) (fi) :
    CtxRel id (.invalidated fi :: log) c c0 := by
  refine ⟨?_, ?_, h.respCb, by simpa [ctxAfter, hr] using h.now⟩
  · rcases h.peer with h1 | ⟨⟨fi', h1, h2⟩, h3⟩
    · exact .inl h1
    · exact .inr ⟨⟨fi', h1, .tail _ h2⟩, h3⟩
  · rcases h.session with h1 | ⟨⟨fi', h1, h2⟩, h3⟩
    · exact .inl h1
    · exact .inr ⟨⟨fi', h1, .tail _ h2⟩, h3⟩

/-- The use counts of a queued message, as far as they are undisturbed. -/
theorem CtxRel.count {i : Nat} {log : List Event} {c : Ctx} {m : PMsg} (h : CtxRel i log c m.ctx) {u id n1 t1} (hu : Undisturbed u log)
    (hp : .passed id n1 t1 m ∈ log) : c.uses.count u = m.ctx.uses.count u := by
  have h1 : c.peerUse.toList.count u = m.ctx.peerUse.toList.count u := by
    rcases h.peer with ⟨_, h⟩ | ⟨⟨fi, h1, h2⟩, _, h3⟩
    · rw [h]
    · have := (hu fi id n1 t1 m h2 hp).1 h1
      rw [h3]
      cases hx : m.ctx.peerUse with
      | none => rfl
      | some v => rw [hx] at this; exact (List.count_eq_zero.mpr (by simpa using fun h => this (congrArg some h.symm))).symm
  have h2 : c.sessionUse.toList.count u = m.ctx.sessionUse.toList.count u := by
    rcases h.session with ⟨_, h⟩ | ⟨⟨fi, h1, h2⟩, _, h3⟩
    · rw [h]
    · have := (hu fi id n1 t1 m h2 hp).2 h1
      rw [h3]
      cases hx : m.ctx.sessionUse with
      | none => rfl
      | some v => rw [hx] at this; exact (List.count_eq_zero.mpr (by simpa using fun h => this (congrArg some h.symm))).symm
  simp only [Ctx.uses, List.count_append, h1, h2]

theorem Undisturbed.of_append {u l log} (h : Undisturbed u (l ++ log)) : Undisturbed u log :=
  fun fi id n1 t1 m h1 h2 => h fi id n1 t1 m (List.mem_append_right _ h1) (List.mem_append_right _ h2)

/-- Use counts held in queues. -/
def qsum (u : Nat × Nat) (q : List QEntry) : Nat := (q.map fun e => e.m.ctx.uses.count u).sum
/-- Use counts held by messages in osmo_pfcp_endpoint_tx(). -/
def tsum (u : Nat × Nat) (t : List (Nat × Ctx)) : Nat := (t.map fun x => x.2.uses.count u).sum

/-- `T`: messages that functions up the call stack will free; `R`: the use counts of the received message. -/
structure UseSum (T : List (Nat × Ctx)) (R : List (Nat × Nat)) (ep : Ep) : Prop where
  old : ∀ id n1 t1 m, .passed id n1 t1 m ∈ ep.log →
    id < ep.nextId ∧ (m.ctx.respCb = some Cb.assoc → m.ctx.peerFi.isSome)
  one : ∀ id n1 t1 m n1' t1' m', .passed id n1 t1 m ∈ ep.log → .passed id n1' t1' m' ∈ ep.log → m = m'
  nodup : ((live ep.log).map (·.1)).Nodup
  ids : ((ep.reqs ++ ep.resps).map (·.id) ++ T.map (·.1)).Nodup
  queued : ∀ e ∈ ep.reqs ++ ep.resps, ∃ m, (e.id, m) ∈ live ep.log ∧ CtxRel e.id ep.log e.m.ctx m.ctx ∧ e.m.h = m.h
  held : ∀ x ∈ T, ∃ m, (x.1, m) ∈ live ep.log ∧ CtxRel x.1 ep.log x.2 m.ctx
  le : ∀ u, qsum u (ep.reqs ++ ep.resps) + tsum u T + R.count u ≤ ep.use u
  exact_ : ∀ u, ep.use u = holders u ep.log + lostUses u ep.log + R.count u

theorem UseSum.lt {T R} {ep : Ep} (h : UseSum T R ep) : ∀ x ∈ live ep.log, x.1 < ep.nextId := by
  intro x hx
  obtain ⟨n1, t1, hp⟩ := live_passed hx
  exact (h.old _ _ _ _ hp).1

theorem qsum_append (u a b) : qsum u (a ++ b) = qsum u a + qsum u b := by simp [qsum]

theorem qsum_flatten (u : Nat × Nat) (q : List QEntry) : (q.map fun e => e.m.ctx.uses).flatten.count u = qsum u q := by
  rw [List.count_flatten, List.map_map]; rfl

/-- Nothing that matters changes, apart from dull events. -/
theorem UseSum.logs {T R} {ep ep' : Ep} (h : UseSum T R ep) (l : List Event) (hl : ep'.log = l ++ ep.log)
    (hd : ∀ e ∈ l, dull e = true) (hn : ep.nextId ≤ ep'.nextId) (hq : ep'.reqs = ep.reqs) (hs : ep'.resps = ep.resps)
    (hu : ep'.use = ep.use) : UseSum T R ep' := by
  have hlv : live ep'.log = live ep.log := by rw [hl, live_append hd]
  have hps : ∀ {id n1 t1 m}, .passed id n1 t1 m ∈ ep'.log → .passed id n1 t1 m ∈ ep.log := by
    intro id n1 t1 m hm
    rw [hl] at hm
    rcases List.mem_append.mp hm with hm | hm
    · cases hd _ hm
    · exact hm
  refine ⟨?_, ?_, ?_, ?_, ?_, ?_, ?_, ?_⟩
  · exact fun id n1 t1 m hm => ⟨Nat.lt_of_lt_of_le (h.old _ _ _ _ (hps hm)).1 hn, (h.old _ _ _ _ (hps hm)).2⟩
  · exact fun id n1 t1 m n1' t1' m' h1 h2 => h.one _ _ _ _ _ _ _ (hps h1) (hps h2)
  · rw [hlv]; exact h.nodup
  · rw [hq, hs]; exact h.ids
  · rw [hq, hs, hlv]
    intro e he
    obtain ⟨m, h1, h2, h3⟩ := h.queued e he
    exact ⟨m, h1, by rw [hl]; exact h2.mono l fun e he => dull_keeping (hd e he), h3⟩
  · rw [hlv]
    intro x hx
    obtain ⟨m, h1, h2⟩ := h.held x hx
    exact ⟨m, h1, by rw [hl]; exact h2.mono l fun e he => dull_keeping (hd e he)⟩
  · rw [hq, hs, hu]; exact h.le
  · intro u
    rw [hu, holders, hlv, hl, lostUses_dull hd]
    exact h.exact_ u

theorem UseSum.note {T R} {ep : Ep} (h : UseSum T R ep) {e} (hd : dull e = true) : UseSum T R (ep.note e) :=
  h.logs [e] rfl (by simpa using hd) (Nat.le_refl _) rfl rfl rfl

/-- osmo_pfcp_endpoint_tx() gets a message. -/
theorem UseSum.passed {T R} {ep ep' : Ep} (h : UseSum T R ep) (m : PMsg) (n1 t1) (hl : ep'.log = .passed ep.nextId n1 t1 m :: ep.log)
    (hn : ep'.nextId = ep.nextId + 1) (hq : ep'.reqs = ep.reqs) (hs : ep'.resps = ep.resps)
    (hu : ∀ u, ep'.use u = ep.use u + m.ctx.uses.count u) (ha : m.ctx.respCb = some Cb.assoc → m.ctx.peerFi.isSome)
    (hr : returnedIn ep.nextId ep.log = false) : UseSum ((ep.nextId, m.ctx) :: T) R ep' := by
  have hlv : live ep'.log = (ep.nextId, m) :: live ep.log := by rw [hl]; rfl
  have hfresh : ∀ x ∈ live ep.log, x.1 ≠ ep.nextId := fun x hx => Nat.ne_of_lt (h.lt x hx)
  refine ⟨?_, ?_, ?_, ?_, ?_, ?_, ?_, ?_⟩
  · rw [hl, hn]
    intro id n1' t1' m' hm
    rcases List.mem_cons.mp hm with hm | hm
    · cases hm; exact ⟨Nat.lt_succ_self _, ha⟩
    · exact ⟨Nat.lt_succ_of_lt (h.old _ _ _ _ hm).1, (h.old _ _ _ _ hm).2⟩
  · rw [hl]
    intro id a b m1 a' b' m2 h1 h2
    rcases List.mem_cons.mp h1 with h1 | h1 <;> rcases List.mem_cons.mp h2 with h2 | h2
    · cases h1; cases h2; rfl
    · cases h1; exact absurd (h.old _ _ _ _ h2).1 (Nat.lt_irrefl _)
    · cases h2; exact absurd (h.old _ _ _ _ h1).1 (Nat.lt_irrefl _)
    · exact h.one _ _ _ _ _ _ _ h1 h2
  · rw [hlv, List.map_cons, List.nodup_cons]
    refine ⟨?_, h.nodup⟩
    intro hm
    obtain ⟨x, hx, he⟩ := List.mem_map.mp hm
    exact hfresh x hx he
  · rw [hq, hs, List.map_cons]
    refine (List.perm_middle).nodup_iff.mpr (List.nodup_cons.mpr ⟨?_, h.ids⟩)
    intro hm
    rcases List.mem_append.mp hm with hm | hm
    · obtain ⟨e, he, hi⟩ := List.mem_map.mp hm
      obtain ⟨m', h1, _⟩ := h.queued e he
      exact hfresh _ h1 hi
    · obtain ⟨x, hx, hi⟩ := List.mem_map.mp hm
      obtain ⟨m', h1, _⟩ := h.held x hx
      exact hfresh _ h1 hi
  · rw [hq, hs, hlv, hl]
    intro e he
    obtain ⟨m', h1, h2, h3⟩ := h.queued e he
    exact ⟨m', .tail _ h1, h2.mono [_] (by simp [keeping]), h3⟩
  · rw [hlv, hl]
    intro x hx
    rcases List.mem_cons.mp hx with rfl | hx
    · exact ⟨m, .head _, .refl (log := .passed ep.nextId n1 t1 m :: ep.log) hr _⟩
    · obtain ⟨m', h1, h2⟩ := h.held x hx
      exact ⟨m', .tail _ h1, h2.mono [_] (by simp [keeping])⟩
  · intro u
    have := h.le u
    rw [hq, hs, hu u]
    simp only [tsum, List.map_cons, List.sum_cons] at this ⊢
    omega
  · intro u
    have := h.exact_ u
    rw [hu u, this, holders, holders, hlv, hl]
    simp only [List.map_cons, List.sum_cons, lostUses]
    omega

/-- A message up the call stack is deallocated. -/
theorem UseSum.freed {T R} {ep ep' : Ep} {id c} (h : UseSum ((id, c) :: T) R ep) (hl : ep'.log = .freed id :: ep.log)
    (hn : ep'.nextId = ep.nextId) (hq : ep'.reqs = ep.reqs) (hs : ep'.resps = ep.resps)
    (hu : ∀ u, ep'.use u = ep.use u - c.uses.count u) : UseSum T R ep' := by
  have hlv : live ep'.log = (live ep.log).filter fun x => x.1 ≠ id := by rw [hl]; rfl
  obtain ⟨m0, hm0, hc0⟩ := h.held _ (.head _)
  dsimp only at hm0 hc0
  obtain ⟨n1, t1, hp0⟩ := live_passed hm0
  dsimp only at hp0
  have hids := h.ids
  rw [List.map_cons] at hids
  have hids' := List.perm_middle.nodup_iff.mp hids
  obtain ⟨hnot, hids'⟩ := List.nodup_cons.mp hids'
  have keep : ∀ {i m}, (i, m) ∈ live ep.log → i ≠ id → (i, m) ∈ live ep'.log := by
    intro i m hm hne
    rw [hlv]
    exact List.mem_filter.mpr ⟨hm, by simpa using hne⟩
  have hps : ∀ {id n1 t1 m}, .passed id n1 t1 m ∈ ep'.log → .passed id n1 t1 m ∈ ep.log := by
    intro id n1 t1 m hm
    rw [hl] at hm
    rcases List.mem_cons.mp hm with hm | hm
    · cases hm
    · exact hm
  refine ⟨?_, ?_, ?_, ?_, ?_, ?_, ?_, ?_⟩
  · rw [hn]
    exact fun id n1 t1 m hm => h.old _ _ _ _ (hps hm)
  · exact fun id n1 t1 m n1' t1' m' h1 h2 => h.one _ _ _ _ _ _ _ (hps h1) (hps h2)
  · rw [hlv]
    exact h.nodup.sublist (List.filter_sublist.map _)
  · rw [hq, hs]; exact hids'
  · rw [hq, hs]
    intro e he
    obtain ⟨m', h1, h2, h3⟩ := h.queued e he
    refine ⟨m', keep h1 ?_, by rw [hl]; exact h2.mono [_] (by simp [keeping]), h3⟩
    rintro rfl
    exact hnot (List.mem_append_left _ (List.mem_map_of_mem he))
  · intro x hx
    obtain ⟨m', h1, h2⟩ := h.held x (.tail _ hx)
    refine ⟨m', keep h1 ?_, by rw [hl]; exact h2.mono [_] (by simp [keeping])⟩
    rintro rfl
    exact hnot (List.mem_append_right _ (List.mem_map.mpr ⟨x, hx, rfl⟩))
  · intro u
    have := h.le u
    rw [hq, hs, hu u]
    simp only [tsum, List.map_cons, List.sum_cons] at this ⊢
    omega
  · intro u
    have := h.exact_ u
    have h1 := sum_only (fun m : PMsg => m.ctx.uses.count u - (ctxAfter id m.ctx ep.log).uses.count u) id m0 h.nodup hm0
    have h2 := ctxAfter_count id m0.ctx u ep.log
    rw [hu u, this, holders, holders, hlv, hl, sum_without (fun m : PMsg => m.ctx.uses.count u) id m0 h.nodup hm0]
    simp only [lostUses]
    rw [h1, hc0.now]
    omega

/-- A sent message is not freed by osmo_pfcp_endpoint_tx() if it is not queued. -/
theorem UseSum.leaked {x T R} {ep : Ep} (h : UseSum (x :: T) R ep) : UseSum T R ep := by
  have hids := h.ids
  rw [List.map_cons] at hids
  have hids' := List.perm_middle.nodup_iff.mp hids
  refine ⟨h.old, h.one, h.nodup, (List.nodup_cons.mp hids').2, h.queued, fun y hy => h.held y (.tail _ hy), ?_, h.exact_⟩
  intro u
  have := h.le u
  simp only [tsum, List.map_cons, List.sum_cons] at this ⊢
  omega

/-- The same queue, up to order. -/
theorem UseSum.perm {T T' R} {ep ep' : Ep} (h : UseSum T R ep) (hl : ep'.log = ep.log) (hn : ep'.nextId = ep.nextId)
    (hu : ep'.use = ep.use) (hi : ((ep'.reqs ++ ep'.resps).map (·.id) ++ T'.map (·.1)).Nodup)
    (hq : ∀ e ∈ ep'.reqs ++ ep'.resps, ∃ m, (e.id, m) ∈ live ep.log ∧ CtxRel e.id ep.log e.m.ctx m.ctx ∧ e.m.h = m.h)
    (ht : ∀ x ∈ T', x ∈ T)
    (hs : ∀ u, qsum u (ep'.reqs ++ ep'.resps) + tsum u T' ≤ qsum u (ep.reqs ++ ep.resps) + tsum u T) : UseSum T' R ep' := by
  refine ⟨?_, ?_, ?_, hi, ?_, ?_, ?_, ?_⟩
  · rw [hl, hn]; exact h.old
  · rw [hl]; exact h.one
  · rw [hl]; exact h.nodup
  · rw [hl]; exact hq
  · rw [hl]; exact fun x hx => h.held x (ht x hx)
  · intro u
    have := h.le u
    have := hs u
    rw [hu]
    omega
  · rw [hl, hu]; exact h.exact_

/-- A message is queued. -/
theorem UseSum.enqueue {T R} {ep : Ep} {e : QEntry} (h : UseSum ((e.id, e.m.ctx) :: T) R ep) {n1 t1 m}
    (hp : .passed e.id n1 t1 m ∈ ep.log) (hh : e.m.h = m.h) : UseSum T R (ep.enqueue e) := by
  have hids := h.ids
  obtain ⟨m0, hm0, hc0⟩ := h.held _ (.head _)
  dsimp only at hm0 hc0
  have hh0 : e.m.h = m0.h := by
    obtain ⟨a, b, hx⟩ := live_passed hm0
    rw [hh, h.one _ _ _ _ _ _ _ hp hx]
  unfold Ep.enqueue
  split
  · refine h.perm rfl rfl rfl ?_ ?_ (fun x hx => .tail _ hx) ?_
    · simpa [List.append_assoc] using hids
    · intro x hx
      dsimp only at hx
      rw [← List.append_assoc] at hx
      rcases List.mem_append.mp hx with hx | hx
      · exact h.queued x hx
      · rw [List.mem_singleton.mp hx]
        exact ⟨m0, hm0, hc0, hh0⟩
    · intro u
      simp only [qsum, tsum, List.map_append, List.map_cons, List.sum_append, List.sum_cons, List.map_nil, List.sum_nil]
      omega
  · refine h.perm rfl rfl rfl ?_ ?_ (fun x hx => .tail _ hx) ?_
    · dsimp only
      rw [List.cons_append, List.map_cons, List.cons_append]
      rw [List.map_cons] at hids
      exact List.perm_middle.nodup_iff.mp hids
    · intro x hx
      dsimp only at hx
      rw [List.cons_append] at hx
      rcases List.mem_cons.mp hx with rfl | hx
      · exact ⟨m0, hm0, hc0, hh0⟩
      · exact h.queued x hx
    · intro u
      simp only [qsum, tsum, List.map_append, List.map_cons, List.sum_append, List.sum_cons, List.cons_append]
      omega

/-- The queue entry of a message changes, but not its context. -/
theorem setEntry_ctx {q : List QEntry} {e e0 : QEntry} (h0 : e0 ∈ q) (hn : (q.map (·.id)).Nodup) (hi : e.id = e0.id)
    (hc : e.m.ctx = e0.m.ctx) (hh : e.m.h = e0.m.h) :
    (setEntry q e).map (·.id) = q.map (·.id) ∧ (∀ u, qsum u (setEntry q e) = qsum u q) ∧
    ∀ x ∈ setEntry q e, ∃ y ∈ q, x.id = y.id ∧ x.m.ctx = y.m.ctx ∧ x.m.h = y.m.h := by
  have key : ∀ y ∈ q, (if y.id = e.id then e else y).id = y.id ∧ (if y.id = e.id then e else y).m.ctx = y.m.ctx ∧
      (if y.id = e.id then e else y).m.h = y.m.h := by
    intro y hy
    split
    · rename_i hyi
      have : y = e0 := by
        have h1 := look_of_mem hn hy
        have h2 := look_of_mem hn h0
        rw [hyi, hi, h2] at h1
        exact (Option.some.inj h1).symm
      subst this
      exact ⟨hi, hc, hh⟩
    · exact ⟨rfl, rfl, rfl⟩
  refine ⟨?_, ?_, ?_⟩
  · simp only [setEntry, List.map_map]
    exact List.map_congr_left fun y hy => (key y hy).1
  · intro u
    simp only [qsum, setEntry, List.map_map]
    congr 1
    exact List.map_congr_left fun y hy => by
      show List.count u (if y.id = e.id then e else y).m.ctx.uses = _
      rw [(key y hy).2.1]
  · intro x hx
    obtain ⟨y, hy, rfl⟩ := List.mem_map.mp hx
    exact ⟨y, hy, key y hy⟩

theorem UseSum.nodupReqs {T R} {ep : Ep} (h : UseSum T R ep) : (ep.reqs.map (·.id)).Nodup := by
  have := h.ids
  rw [List.map_append, List.append_assoc] at this
  exact (List.nodup_append.mp this).1

theorem UseSum.nodupResps {T R} {ep : Ep} (h : UseSum T R ep) : (ep.resps.map (·.id)).Nodup := by
  have := h.ids
  rw [List.map_append, List.append_assoc] at this
  exact (List.nodup_append.mp (List.nodup_append.mp this).2.1).1

theorem UseSum.setReq {T R} {ep : Ep} (h : UseSum T R ep) {e e0 : QEntry} (h0 : e0 ∈ ep.reqs) (hi : e.id = e0.id)
    (hc : e.m.ctx = e0.m.ctx) (hh : e.m.h = e0.m.h) : UseSum T R { ep with reqs := setEntry ep.reqs e } := by
  obtain ⟨k1, k2, k3⟩ := setEntry_ctx h0 h.nodupReqs hi hc hh
  refine h.perm rfl rfl rfl ?_ ?_ (fun _ h => h) ?_
  · dsimp only
    rw [List.map_append, k1, ← List.map_append]
    exact h.ids
  · intro x hx
    rcases List.mem_append.mp hx with hx | hx
    · obtain ⟨y, hy, h1, h2, h3⟩ := k3 x hx
      rw [h1, h2, h3]
      exact h.queued y (List.mem_append_left _ hy)
    · exact h.queued x (List.mem_append_right _ hx)
  · intro u
    dsimp only
    rw [qsum_append, qsum_append, k2]
    omega

theorem UseSum.setResp {T R} {ep : Ep} (h : UseSum T R ep) {e e0 : QEntry} (h0 : e0 ∈ ep.resps) (hi : e.id = e0.id)
    (hc : e.m.ctx = e0.m.ctx) (hh : e.m.h = e0.m.h) : UseSum T R { ep with resps := setEntry ep.resps e } := by
  obtain ⟨k1, k2, k3⟩ := setEntry_ctx h0 h.nodupResps hi hc hh
  refine h.perm rfl rfl rfl ?_ ?_ (fun _ h => h) ?_
  · dsimp only
    rw [List.map_append, k1, ← List.map_append]
    exact h.ids
  · intro x hx
    rcases List.mem_append.mp hx with hx | hx
    · exact h.queued x (List.mem_append_left _ hx)
    · obtain ⟨y, hy, h1, h2, h3⟩ := k3 x hx
      rw [h1, h2, h3]
      exact h.queued y (List.mem_append_right _ hy)
  · intro u
    dsimp only
    rw [qsum_append, qsum_append, k2]
    omega

/-- Messages up the call stack are deallocated, with other events. -/
theorem UseSum.freeAll {T R} : ∀ (X : List (Nat × Ctx)) {ep ep' : Ep}, UseSum (X ++ T) R ep →
    ep'.log = (X.map fun x => [Event.dropped x.1, Event.freed x.1]).flatten.reverse ++ ep.log →
    ep'.nextId = ep.nextId → ep'.reqs = ep.reqs → ep'.resps = ep.resps → (∀ u, ep'.use u = ep.use u - tsum u X) →
    UseSum T R ep'
  | [], ep, ep', h, hl, hn, hq, hs, hu =>
    UseSum.logs h [] hl (by simp) (Nat.le_of_eq hn.symm) hq hs (funext fun u => by rw [hu u]; rfl)
  | x :: X, ep, ep', h, hl, hn, hq, hs, hu => by
    have h1 : UseSum (x :: (X ++ T)) R (ep.note (.dropped x.1)) := h.note rfl
    have h2 : UseSum (X ++ T) R { ep with log := .freed x.1 :: .dropped x.1 :: ep.log
                                          use := fun u => ep.use u - x.2.uses.count u } :=
      h1.freed rfl rfl rfl rfl fun _ => rfl
    refine UseSum.freeAll X h2 ?_ hn hq hs ?_
    · rw [hl]; simp
    · intro u
      rw [hu u]
      simp only [tsum, List.map_cons, List.sum_cons]
      omega

/-- What the queues hold, as messages up the call stack. -/
def asHeld (q : List QEntry) : List (Nat × Ctx) := q.map fun e => (e.id, e.m.ctx)

theorem tsum_asHeld (u q) : tsum u (asHeld q) = qsum u q := by simp [tsum, asHeld, qsum, Function.comp_def]

theorem asHeld_ids (q : List QEntry) : (asHeld q).map (·.1) = q.map (·.id) := by simp [asHeld, Function.comp_def]

theorem tsum_append (u a b) : tsum u (a ++ b) = tsum u a + tsum u b := by simp [tsum]

/-- osmo_pfcp_endpoint_close() -/
theorem UseSum.close {T R} {ep ep' : Ep} (h : UseSum T R ep) (hc : ep.close = .ok ep') : UseSum T R ep' := by
  unfold Ep.close at hc
  split at hc
  · cases hc
  obtain ⟨ep1, h1, hc⟩ := Res.bind_eq_ok hc
  cases hc
  obtain ⟨rfl, -⟩ := releaseUses_ok h1
  have h2 : UseSum (asHeld (ep.reqs ++ ep.resps) ++ T) R { ep with reqs := [], resps := [] } := by
    refine ⟨h.old, h.one, h.nodup, ?_, by simp, ?_, ?_, h.exact_⟩
    · dsimp only
      rw [List.map_append (l₁ := asHeld _), asHeld_ids]
      simpa using h.ids
    · intro x hx
      rcases List.mem_append.mp hx with hx | hx
      · obtain ⟨e, he, rfl⟩ := List.mem_map.mp hx
        obtain ⟨m, h1, h2, _⟩ := h.queued e he
        exact ⟨m, h1, h2⟩
      · exact h.held x hx
    · intro u
      have := h.le u
      rw [tsum_append, tsum_asHeld]
      simp only [qsum, List.append_nil, List.map_nil, List.sum_nil] at this ⊢
      omega
  refine UseSum.freeAll _ h2 ?_ rfl rfl rfl ?_
  · simp [Ep.closed, asHeld, Function.comp_def]
  · intro u
    rw [tsum_asHeld, ← qsum_flatten]
    rfl

/-- The use counts suffice to close the endpoint. -/
theorem UseSum.close_total {T R} {ep : Ep} (h : UseSum T R ep) (hb : ep.busy = []) :
    ∃ us, ep.close = .ok { ep with use := us }.closed := by
  unfold Ep.close
  rw [if_neg (by simp [hb])]
  obtain ⟨ep1, h1⟩ := releaseUses_total (ep := ep) (us := ((ep.reqs ++ ep.resps).map fun e => e.m.ctx.uses).flatten) (by
    intro u
    rw [qsum_flatten]
    have := h.le u
    omega)
  rw [h1]
  obtain ⟨rfl, -⟩ := releaseUses_ok h1
  exact ⟨_, rfl⟩

theorem qsum_split (u : Nat × Nat) (p : QEntry → Bool) : ∀ q : List QEntry,
    qsum u (q.filter p) + qsum u (q.filter fun e => !p e) = qsum u q
  | [] => rfl
  | e :: q => by
    have := qsum_split u p q
    cases hp : p e <;> simp [qsum, hp] at this ⊢ <;> omega

/-- osmo_pfcp_queue_del() -/
theorem UseSum.queueDel {T R} {ep ep' : Ep} {id} (h : UseSum T R ep) (hm : ∃ e ∈ ep.reqs ++ ep.resps, e.id = id)
    (hd : ep.queueDel id = .ok ep') : UseSum T R ep' := by
  obtain ⟨ep1, h1, hd⟩ := Res.bind_eq_ok hd
  cases hd
  obtain ⟨rfl, -⟩ := releaseUses_ok h1
  obtain ⟨e, he, rfl⟩ := hm
  have hids := h.ids
  have hnd : ((ep.reqs ++ ep.resps).map (·.id)).Nodup := (List.nodup_append.mp hids).1
  have hone : ((ep.reqs ++ ep.resps).filter fun x => x.id = e.id) = [e] := by
    have : ∀ (q : List QEntry), (q.map (·.id)).Nodup → e ∈ q → (q.filter fun x => x.id = e.id) = [e] := by
      intro q
      induction q with
      | nil => intro _ h; cases h
      | cons x q ih =>
        intro hn hm
        simp only [List.map_cons, List.nodup_cons] at hn
        rcases List.mem_cons.mp hm with rfl | hm
        · rw [List.filter_cons_of_pos (by simp)]
          congr 1
          apply List.filter_eq_nil_iff.mpr
          intro y hy hyi
          exact hn.1 (List.mem_map.mpr ⟨y, hy, by simpa using hyi⟩)
        · rw [List.filter_cons_of_neg, ih hn.2 hm]
          intro hxi
          exact hn.1 (List.mem_map.mpr ⟨e, hm, by simpa using (by simpa using hxi : x.id = e.id).symm⟩)
    exact this _ hnd he
  have hsub : ∀ x ∈ (ep.reqs.filter fun x => x.id ≠ e.id) ++ ep.resps.filter fun x => x.id ≠ e.id,
      x ∈ ep.reqs ++ ep.resps ∧ x.id ≠ e.id := by
    intro x hx
    rw [← List.filter_append] at hx
    obtain ⟨h1, h2⟩ := List.mem_filter.mp hx
    exact ⟨h1, by simpa using h2⟩
  have h2 : UseSum ((e.id, e.m.ctx) :: T) R { ep with reqs := ep.reqs.filter fun x => x.id ≠ e.id
                                                      resps := ep.resps.filter fun x => x.id ≠ e.id } := by
    refine ⟨h.old, h.one, h.nodup, ?_, ?_, ?_, ?_, h.exact_⟩
    · dsimp only
      rw [List.map_cons, List.perm_middle.nodup_iff, List.nodup_cons]
      constructor
      · intro hx
        rcases List.mem_append.mp hx with hx | hx
        · obtain ⟨x, hx, hi⟩ := List.mem_map.mp hx
          exact (hsub x hx).2 hi
        · exact (List.nodup_append.mp hids).2.2 _ (List.mem_map_of_mem he) _ hx rfl
      · rw [← List.filter_append]
        exact hids.sublist (List.Sublist.append (List.filter_sublist.map _) (.refl _))
    · intro x hx
      exact h.queued x (hsub x hx).1
    · intro x hx
      rcases List.mem_cons.mp hx with rfl | hx
      · obtain ⟨m, h1, h2, _⟩ := h.queued e he
        exact ⟨m, h1, h2⟩
      · exact h.held x hx
    · intro u
      have h3 := h.le u
      have h4 := qsum_split u (fun x => decide (x.id = e.id)) (ep.reqs ++ ep.resps)
      rw [hone] at h4
      dsimp only
      rw [← List.filter_append]
      have h5 : ((ep.reqs ++ ep.resps).filter fun x => decide (x.id ≠ e.id)) =
          (ep.reqs ++ ep.resps).filter fun x => !decide (x.id = e.id) := by
        congr 1
        funext x
        simp
      rw [h5]
      simp only [tsum, List.map_cons, List.sum_cons]
      simp only [tsum] at h3
      have : qsum u [e] = e.m.ctx.uses.count u := by simp [qsum]
      omega
  refine h2.freed rfl rfl rfl rfl fun u => ?_
  dsimp only
  rw [hone]
  simp

/-- The use counts suffice to remove a message from its queue. -/
theorem UseSum.queueDel_total {T R} {ep : Ep} (h : UseSum T R ep) (id) : ∃ ep', ep.queueDel id = .ok ep' := by
  unfold Ep.queueDel
  obtain ⟨ep1, h1⟩ := releaseUses_total (ep := ep)
    (us := (((ep.reqs ++ ep.resps).filter fun e => e.id = id).map fun e => e.m.ctx.uses).flatten) (by
    intro u
    rw [qsum_flatten]
    have := h.le u
    have := qsum_split u (fun x => decide (x.id = id)) (ep.reqs ++ ep.resps)
    omega)
  rw [h1]
  exact ⟨_, rfl⟩

/-- osmo_pfcp_endpoint_invalidate_ctx() -/
theorem msgInvalidate_count (m : PMsg) (fi u) : (msgInvalidateCtx m fi).ctx.uses.count u ≤ m.ctx.uses.count u := by
  have h1 : (if m.ctx.sessionFi = some fi then
      { m with ctx := { m.ctx with sessionFi := none, sessionUse := none } } else m).ctx.uses.count u ≤ m.ctx.uses.count u := by
    split
    · simp [Ctx.uses]
    · exact Nat.le_refl _
  unfold msgInvalidateCtx
  generalize (if m.ctx.sessionFi = some fi then
      { m with ctx := { m.ctx with sessionFi := none, sessionUse := none } } else m) = m1 at h1
  refine Nat.le_trans ?_ h1
  dsimp only
  split
  · simp [Ctx.uses]
  · exact Nat.le_refl _

/-- The received message takes use counts. -/
theorem UseSum.take {T R} {ep : Ep} (h : UseSum T R ep) (us) : UseSum T (us ++ R) (ep.takeUses us) := by
  refine ⟨h.old, h.one, h.nodup, h.ids, h.queued, h.held, ?_, ?_⟩
  · intro u
    have := h.le u
    simp only [Ep.takeUses, List.count_append]
    omega
  · intro u
    have := h.exact_ u
    simp only [Ep.takeUses, List.count_append]
    omega

/-- ... and releases them. -/
theorem UseSum.release {T R} {ep ep' : Ep} {us} (h : UseSum T (us ++ R) ep) (hr : ep.releaseUses us = .ok ep') :
    UseSum T R ep' := by
  obtain ⟨rfl, h1⟩ := releaseUses_ok hr
  refine ⟨h.old, h.one, h.nodup, h.ids, h.queued, h.held, ?_, ?_⟩
  · intro u
    have := h.le u
    simp only [List.count_append] at this ⊢
    omega
  · intro u
    have := h.exact_ u
    have := h.le u
    have := h1 u
    simp only [List.count_append] at *
    omega

/-! ### ... and which messages are queued -/

/-- What was said above; and `osmo_pfcp_endpoint_tx()` has returned success for the messages in the queues, but not for those up the
call stack. -/
structure UseInv (T : List (Nat × Ctx)) (R : List (Nat × Nat)) (ep : Ep) : Prop extends UseSum T R ep where
  young : ∀ x ∈ T, returnedIn x.1 ep.log = false
  settled : ∀ e ∈ ep.reqs ++ ep.resps, returnedIn e.id ep.log = true
  known : ∀ id, ep.nextId ≤ id → returnedIn id ep.log = false

theorem UseInv.lt {T R} {ep : Ep} (h : UseInv T R ep) : ∀ x ∈ live ep.log, x.1 < ep.nextId := h.toUseSum.lt

/-- Events that are no success of osmo_pfcp_endpoint_tx(). -/
def unreturned : Event → Bool
  | .returned _ none => false
  | _ => true

theorem dull_unreturned {e : Event} (h : dull e = true) : unreturned e = true := by
  cases e with
  | returned i rc => cases rc <;> first | rfl | cases h
  | _ => rfl

theorem returnedIn_append {id : Nat} : ∀ {l : List Event}, (∀ e ∈ l, unreturned e = true) → ∀ log : List Event,
    returnedIn id (l ++ log) = returnedIn id log
  | [], _, _ => rfl
  | e :: l, h, log => by
    have h1 := h e (.head _)
    have h2 := returnedIn_append (id := id) (fun x hx => h x (.tail _ hx)) log
    cases e with
    | returned i rc => cases rc <;> first | exact h2 | cases h1
    | _ => exact h2

/-- The rest of the invariant is kept where nothing is returned and nothing queued. -/
theorem UseInv.keep {T T' R R'} {ep ep' : Ep} (h : UseInv T R ep) (hc : UseSum T' R' ep') (l : List Event) (hl : ep'.log = l ++ ep.log)
    (hr : ∀ e ∈ l, unreturned e = true) (hn : ep.nextId ≤ ep'.nextId) (ht : ∀ x ∈ T', x ∈ T ∨ ep.nextId ≤ x.1)
    (hq : ∀ e ∈ ep'.reqs ++ ep'.resps, ∃ e0 ∈ ep.reqs ++ ep.resps, e.id = e0.id) : UseInv T' R' ep' := by
  refine ⟨hc, ?_, ?_, ?_⟩
  · intro x hx
    rw [hl, returnedIn_append hr]
    rcases ht x hx with h1 | h1
    · exact h.young x h1
    · exact h.known _ h1
  · intro e he
    obtain ⟨e0, h1, h2⟩ := hq e he
    rw [hl, returnedIn_append hr, h2]
    exact h.settled e0 h1
  · intro id hid
    rw [hl, returnedIn_append hr]
    exact h.known id (Nat.le_trans hn hid)

theorem UseInv.logs {T R} {ep ep' : Ep} (h : UseInv T R ep) (l : List Event) (hl : ep'.log = l ++ ep.log)
    (hd : ∀ e ∈ l, dull e = true) (hn : ep.nextId ≤ ep'.nextId) (hq : ep'.reqs = ep.reqs) (hs : ep'.resps = ep.resps)
    (hu : ep'.use = ep.use) : UseInv T R ep' :=
  h.keep (h.toUseSum.logs l hl hd hn hq hs hu) l hl (fun e he => dull_unreturned (hd e he)) hn (fun _ h => .inl h)
    (by rw [hq, hs]; exact fun e he => ⟨e, he, rfl⟩)

theorem UseInv.note {T R} {ep : Ep} (h : UseInv T R ep) {e} (hd : dull e = true) : UseInv T R (ep.note e) :=
  h.logs [e] rfl (by simpa using hd) (Nat.le_refl _) rfl rfl rfl

theorem UseInv.passed {T R} {ep ep' : Ep} (h : UseInv T R ep) (m : PMsg) (n1 t1) (hl : ep'.log = .passed ep.nextId n1 t1 m :: ep.log)
    (hn : ep'.nextId = ep.nextId + 1) (hq : ep'.reqs = ep.reqs) (hs : ep'.resps = ep.resps)
    (hu : ∀ u, ep'.use u = ep.use u + m.ctx.uses.count u) (ha : m.ctx.respCb = some Cb.assoc → m.ctx.peerFi.isSome) :
    UseInv ((ep.nextId, m.ctx) :: T) R ep' := by
  refine h.keep (h.toUseSum.passed m n1 t1 hl hn hq hs hu ha (h.known _ (Nat.le_refl _))) [_] hl (by simp [unreturned]) (by omega) ?_
    (by rw [hq, hs]; exact fun e he => ⟨e, he, rfl⟩)
  intro x hx
  rcases List.mem_cons.mp hx with rfl | hx
  · exact .inr (Nat.le_refl _)
  · exact .inl hx

theorem UseInv.freed {T R} {ep ep' : Ep} {id c} (h : UseInv ((id, c) :: T) R ep) (hl : ep'.log = .freed id :: ep.log)
    (hn : ep'.nextId = ep.nextId) (hq : ep'.reqs = ep.reqs) (hs : ep'.resps = ep.resps)
    (hu : ∀ u, ep'.use u = ep.use u - c.uses.count u) : UseInv T R ep' :=
  h.keep (h.toUseSum.freed hl hn hq hs hu) [_] hl (by simp [unreturned]) (by omega) (fun _ h => .inl (.tail _ h))
    (by rw [hq, hs]; exact fun e he => ⟨e, he, rfl⟩)

/-- A message for which osmo_pfcp_endpoint_tx() returns success. -/
theorem UseSum.returned {T R} {ep : Ep} {id} (h : UseSum T R ep) : UseSum T R (ep.note (.returned id none)) := by
  have hk : ∀ e ∈ [Event.returned id none], keeping e = true := by simp [keeping]
  refine ⟨?_, ?_, h.nodup, h.ids, ?_, ?_, h.le, h.exact_⟩
  · intro i n1 t1 m hm
    rcases List.mem_cons.mp hm with hm | hm
    · cases hm
    · exact h.old _ _ _ _ hm
  · intro i n1 t1 m n1' t1' m' h1 h2
    rcases List.mem_cons.mp h1 with h1 | h1
    · cases h1
    rcases List.mem_cons.mp h2 with h2 | h2
    · cases h2
    exact h.one _ _ _ _ _ _ _ h1 h2
  · intro e he
    obtain ⟨m, h1, h2, h3⟩ := h.queued e he
    exact ⟨m, h1, h2.mono _ hk, h3⟩
  · intro x hx
    obtain ⟨m, h1, h2⟩ := h.held x hx
    exact ⟨m, h1, h2.mono _ hk⟩

/-- A sent message is not freed by osmo_pfcp_endpoint_tx() if it is not queued. -/
theorem UseInv.leaked {id c T R} {ep : Ep} (h : UseInv ((id, c) :: T) R ep) : UseInv T R (ep.note (.returned id none)) := by
  obtain ⟨m, hm, _⟩ := h.held _ (.head _)
  have hlt := h.lt _ hm
  have hids := h.ids
  rw [List.map_cons] at hids
  have hids' := (List.nodup_cons.mp (List.perm_middle.nodup_iff.mp hids)).1
  refine ⟨h.toUseSum.leaked.returned, ?_, ?_, ?_⟩
  · intro x hx
    have h1 : id ≠ x.1 := fun hh => hids' (List.mem_append_right _ (List.mem_map.mpr ⟨x, hx, hh.symm⟩))
    simpa [Ep.note, returnedIn, h1] using h.young x (.tail _ hx)
  · intro e he
    simp [Ep.note, returnedIn, h.settled e he]
  · intro i hi
    have h1 : id ≠ i := fun hh => Nat.lt_irrefl _ (Nat.lt_of_lt_of_le hlt (hh ▸ hi))
    simpa [Ep.note, returnedIn, h1] using h.known i hi

/-- A message is queued. -/
theorem UseInv.enqueue {T R} {ep : Ep} {e : QEntry} (h : UseInv ((e.id, e.m.ctx) :: T) R ep) {n1 t1 m}
    (hp : .passed e.id n1 t1 m ∈ ep.log) (hh : e.m.h = m.h) : UseInv T R ((ep.enqueue e).note (.returned e.id none)) := by
  obtain ⟨m, hm, _⟩ := h.held _ (.head _)
  have hlt := h.lt _ hm
  have hids := h.ids
  rw [List.map_cons] at hids
  have hids' := (List.nodup_cons.mp (List.perm_middle.nodup_iff.mp hids)).1
  have hlog : (ep.enqueue e).log = ep.log := by unfold Ep.enqueue; split <;> rfl
  have hnext : (ep.enqueue e).nextId = ep.nextId := by unfold Ep.enqueue; split <;> rfl
  have hmem : ∀ x ∈ (ep.enqueue e).reqs ++ (ep.enqueue e).resps, x = e ∨ x ∈ ep.reqs ++ ep.resps := by
    intro x hx
    unfold Ep.enqueue at hx
    split at hx
    · simp only [List.mem_append, List.mem_cons, List.not_mem_nil, or_false] at hx ⊢
      rcases hx with h1 | h1 | h1
      · exact .inr (.inl h1)
      · exact .inr (.inr h1)
      · exact .inl h1
    · simp only [List.mem_append, List.mem_cons] at hx ⊢
      rcases hx with (h1 | h1) | h1
      · exact .inl h1
      · exact .inr (.inl h1)
      · exact .inr (.inr h1)
  refine ⟨(h.toUseSum.enqueue hp hh).returned, ?_, ?_, ?_⟩
  · intro x hx
    have h1 : e.id ≠ x.1 := fun hh => hids' (List.mem_append_right _ (List.mem_map.mpr ⟨x, hx, hh.symm⟩))
    simpa [Ep.note, returnedIn, h1, hlog] using h.young x (.tail _ hx)
  · intro x hx
    rcases hmem x hx with rfl | h1
    · simp [Ep.note, returnedIn]
    · simp [Ep.note, returnedIn, hlog, h.settled x h1]
  · intro i hi
    have hi' : ep.nextId ≤ i := by rw [← hnext]; exact hi
    have h1 : e.id ≠ i := fun hh => Nat.lt_irrefl _ (Nat.lt_of_lt_of_le hlt (hh ▸ hi'))
    simpa [Ep.note, returnedIn, h1, hlog] using h.known i hi'

theorem UseInv.nodupReqs {T R} {ep : Ep} (h : UseInv T R ep) : (ep.reqs.map (·.id)).Nodup := h.toUseSum.nodupReqs
theorem UseInv.nodupResps {T R} {ep : Ep} (h : UseInv T R ep) : (ep.resps.map (·.id)).Nodup := h.toUseSum.nodupResps

theorem UseInv.setReq {T R} {ep : Ep} (h : UseInv T R ep) {e e0 : QEntry} (h0 : e0 ∈ ep.reqs) (hi : e.id = e0.id)
    (hc : e.m.ctx = e0.m.ctx) (hh : e.m.h = e0.m.h) : UseInv T R { ep with reqs := setEntry ep.reqs e } := by
  obtain ⟨-, -, k3⟩ := setEntry_ctx h0 h.nodupReqs hi hc hh
  refine h.keep (h.toUseSum.setReq h0 hi hc hh) [] rfl (by simp) (Nat.le_refl _) (fun _ h => .inl h) ?_
  intro x hx
  rcases List.mem_append.mp hx with hx | hx
  · obtain ⟨y, hy, h1, _⟩ := k3 x hx
    exact ⟨y, List.mem_append_left _ hy, h1⟩
  · exact ⟨x, List.mem_append_right _ hx, rfl⟩

theorem UseInv.setResp {T R} {ep : Ep} (h : UseInv T R ep) {e e0 : QEntry} (h0 : e0 ∈ ep.resps) (hi : e.id = e0.id)
    (hc : e.m.ctx = e0.m.ctx) (hh : e.m.h = e0.m.h) : UseInv T R { ep with resps := setEntry ep.resps e } := by
  obtain ⟨-, -, k3⟩ := setEntry_ctx h0 h.nodupResps hi hc hh
  refine h.keep (h.toUseSum.setResp h0 hi hc hh) [] rfl (by simp) (Nat.le_refl _) (fun _ h => .inl h) ?_
  intro x hx
  rcases List.mem_append.mp hx with hx | hx
  · exact ⟨x, List.mem_append_left _ hx, rfl⟩
  · obtain ⟨y, hy, h1, _⟩ := k3 x hx
    exact ⟨y, List.mem_append_right _ hy, h1⟩

theorem UseInv.close {T R} {ep ep' : Ep} (h : UseInv T R ep) (hc : ep.close = .ok ep') : UseInv T R ep' := by
  have hcore := h.toUseSum.close hc
  unfold Ep.close at hc
  split at hc
  · cases hc
  obtain ⟨ep1, h1, hc⟩ := Res.bind_eq_ok hc
  cases hc
  obtain ⟨rfl, -⟩ := releaseUses_ok h1
  refine h.keep hcore ((ep.reqs ++ ep.resps).map fun e => [Event.dropped e.id, Event.freed e.id]).flatten.reverse ?_ ?_ (Nat.le_refl _)
    (fun _ h => .inl h) ?_
  · simp [Ep.closed]
  · intro e he
    simp only [List.mem_reverse, List.mem_flatten, List.mem_map] at he
    obtain ⟨l, ⟨x, _, rfl⟩, he⟩ := he
    simp only [List.mem_cons, List.not_mem_nil, or_false] at he
    rcases he with rfl | rfl <;> rfl
  · intro e he
    simp [Ep.closed] at he

/-- The use counts suffice to close the endpoint. -/
theorem UseInv.close_total {T R} {ep : Ep} (h : UseInv T R ep) (hb : ep.busy = []) :
    ∃ us, ep.close = .ok { ep with use := us }.closed := h.toUseSum.close_total hb

theorem UseInv.queueDel {T R} {ep ep' : Ep} {id} (h : UseInv T R ep) (hm : ∃ e ∈ ep.reqs ++ ep.resps, e.id = id)
    (hd : ep.queueDel id = .ok ep') : UseInv T R ep' := by
  have hcore := h.toUseSum.queueDel hm hd
  obtain ⟨ep1, h1, hd⟩ := Res.bind_eq_ok hd
  cases hd
  obtain ⟨rfl, -⟩ := releaseUses_ok h1
  refine h.keep hcore [.freed id] rfl (by simp [unreturned]) (Nat.le_refl _) (fun _ h => .inl h) ?_
  intro e he
  dsimp only at he
  rw [← List.filter_append] at he
  exact ⟨e, (List.mem_filter.mp he).1, rfl⟩

/-- The use counts suffice to remove a message from its queue. -/
theorem UseInv.queueDel_total {T R} {ep : Ep} (h : UseInv T R ep) (id) : ∃ ep', ep.queueDel id = .ok ep' :=
  h.toUseSum.queueDel_total id

/-- osmo_pfcp_endpoint_invalidate_ctx() -/
theorem UseInv.invalidate {T R} {ep : Ep} (h : UseInv T R ep) (fi) : UseInv T R (ep.invalidate fi) := by
  have hmap : (ep.invalidate fi).reqs ++ (ep.invalidate fi).resps =
      (ep.reqs ++ ep.resps).map fun e => { e with m := msgInvalidateCtx e.m fi } := by
    simp [Ep.invalidate, Ep.dropCtx, Ep.note]
  have hps : ∀ {id n1 t1 m}, .passed id n1 t1 m ∈ (ep.invalidate fi).log → .passed id n1 t1 m ∈ ep.log := by
    intro id n1 t1 m hm
    rcases List.mem_cons.mp hm with hm | hm
    · cases hm
    · exact hm
  refine h.keep ⟨fun _ _ _ _ hm => h.old _ _ _ _ (hps hm), fun _ _ _ _ _ _ _ h1 h2 => h.one _ _ _ _ _ _ _ (hps h1) (hps h2),
    h.nodup, ?_, ?_, ?_, ?_, h.exact_⟩ [.invalidated fi] rfl (by simp [unreturned]) (Nat.le_refl _) (fun _ h => .inl h) ?_
  · rw [hmap, List.map_map]
    exact h.ids
  · rw [hmap]
    intro e he
    obtain ⟨e0, he0, rfl⟩ := List.mem_map.mp he
    obtain ⟨m, h1, h2, h3⟩ := h.queued e0 he0
    refine ⟨m, h1, h2.invalidate (h.settled e0 he0) fi, ?_⟩
    rw [← h3]
    simp only [msgInvalidateCtx]
    split <;> split <;> rfl
  · intro x hx
    obtain ⟨m, h1, h2⟩ := h.held x hx
    exact ⟨m, h1, h2.invalidated (h.young x hx) fi⟩
  · intro u
    have := h.le u
    have h2 : ∀ q : List QEntry, qsum u (q.map fun e => { e with m := msgInvalidateCtx e.m fi }) ≤ qsum u q := by
      intro q
      induction q with
      | nil => exact Nat.le_refl _
      | cons e q ih =>
        have := msgInvalidate_count e.m fi u
        simp only [qsum, List.map_cons, List.sum_cons] at ih ⊢
        omega
    have := h2 (ep.reqs ++ ep.resps)
    rw [hmap]
    show _ ≤ ep.use u
    omega
  · rw [hmap]
    intro e he
    obtain ⟨e0, he0, rfl⟩ := List.mem_map.mp he
    exact ⟨e0, he0, rfl⟩

theorem UseInv.take {T R} {ep : Ep} (h : UseInv T R ep) (us) : UseInv T (us ++ R) (ep.takeUses us) :=
  h.keep (h.toUseSum.take us) [] rfl (by simp) (Nat.le_refl _) (fun _ h => .inl h) fun e he => ⟨e, he, rfl⟩

theorem UseInv.release {T R} {ep ep' : Ep} {us} (h : UseInv T (us ++ R) ep) (hr : ep.releaseUses us = .ok ep') :
    UseInv T R ep' := by
  have hcore := h.toUseSum.release hr
  obtain ⟨rfl, h1⟩ := releaseUses_ok hr
  exact h.keep hcore [] rfl (by simp) (Nat.le_refl _) (fun _ h => .inl h) fun e he => ⟨e, he, rfl⟩

/-! ### Without invalidations nothing is lost -/

theorem ctxAfter_rel (id : Nat) (c : Ctx) : ∀ log : List Event, CtxRel id log (ctxAfter id c log) c
  | [] => ⟨.inl ⟨rfl, rfl⟩, .inl ⟨rfl, rfl⟩, rfl, rfl⟩
  | e :: log => by
    have ih := ctxAfter_rel id c log
    by_cases hk : keeping e = true
    · have := ih.mono [e] (by simpa using hk)
      rw [List.singleton_append] at this
      have h2 : ctxAfter id c (e :: log) = ctxAfter id c log := ctxAfter_keeping (l := [e]) (by simpa using hk) log
      rw [h2]
      exact this
    · cases e with
      | invalidated fi =>
        by_cases hr : returnedIn id log = true
        · have := CtxRel.invalidate (m := { remote := .unspec, ctx := ctxAfter id c log }) ih hr fi
          rw [invalidate_without] at this
          simpa [ctxAfter, hr] using this
        · have hr : returnedIn id log = false := by simpa using hr
          have := ih.invalidated hr fi
          simpa [ctxAfter, hr] using this
      | _ => exact absurd rfl hk

theorem sum_zero : ∀ {l : List Nat}, (∀ x ∈ l, x = 0) → l.sum = 0
  | [], _ => rfl
  | x :: l, h => by
    rw [List.sum_cons, h x (.head _), sum_zero fun y hy => h y (.tail _ hy)]

theorem lostUses_undisturbed {u} : ∀ {log : List Event}, Undisturbed u log → lostUses u log = 0
  | [], _ => rfl
  | e :: log, h => by
    have h' : Undisturbed u log := h.of_append (l := [e])
    have ih := lostUses_undisturbed h'
    cases e with
    | freed id =>
      simp only [lostUses, ih, Nat.zero_add]
      apply sum_zero
      intro x hx
      obtain ⟨y, hy, rfl⟩ := List.mem_map.mp hx
      obtain ⟨hy, _⟩ := List.mem_filter.mp hy
      obtain ⟨n1, t1, hp⟩ := live_passed hy
      rw [(ctxAfter_rel id y.2.ctx log).count h' hp]
      omega
    | _ => exact ih

theorem UseInv.eq {T R} {ep : Ep} (h : UseInv T R ep) {u} (hu : Undisturbed u ep.log) : ep.use u = holders u ep.log + R.count u := by
  rw [h.exact_ u, lostUses_undisturbed hu]
  rfl

end Verif
