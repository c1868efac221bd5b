/-
What follows from the life of a message (SpecEndpoint.lean).
-/
import Verif.EndpointLife

namespace Verif

/-- The parameters of osmo_pfcp_endpoint_tx(). -/
def Stage.info : Stage → Option (Nat × Nat × PMsg)
  | .unseen => none
  | .passed n1 t1 m | .refused n1 t1 m | .sent n1 t1 m _ | .reported n1 t1 m _ | .lost n1 t1 m | .waiting n1 t1 m _ _
  | .stuck n1 t1 m | .matched n1 t1 m _ | .called n1 t1 m _ | .dispatched n1 t1 m _ | .gaveUp n1 t1 m | .kept n1 t1 m _
  | .dropped n1 t1 m | .leaked n1 t1 m | .over n1 t1 m _ => some (n1, t1, m)

/-- How many transmissions may follow. -/
def Stage.room : Stage → Nat
  | .passed n1 _ _ => 1 + n1
  | .refused n1 _ _ => n1
  | .sent n1 _ _ _ => n1
  | .waiting _ _ _ _ left => left
  | _ => 0

def Stage.ended : Stage → Bool
  | .reported .. | .lost .. | .matched .. | .called .. | .dispatched .. | .gaveUp .. | .dropped .. | .leaked ..
  | .over .. => true
  | _ => false

/-- How often resp_cb() was called. -/
def Stage.calls : Stage → Nat
  | .reported .. => 1
  | .lost _ _ m => m.wantsCb.toNat
  | .called .. => 1
  | .dispatched _ _ m _ => m.hasCb.toNat
  | .gaveUp .. => 1
  | .leaked _ _ m => m.wantsCb.toNat
  | .over _ _ m false => m.wantsCb.toNat
  | _ => 0

def Stage.frees : Stage → Nat
  | .lost .. => 1
  | .over .. => 1
  | _ => 0

def Stage.drops : Stage → Nat
  | .dropped .. => 1
  | .over _ _ _ true => 1
  | _ => 0

/-- Facts about the message. -/
def Stage.good : Stage → Prop
  | .sent _ _ m o => m.encode = .ok o
  | .reported n1 t1 m b => m.wantsCb = true ∧ (b = true → n1 = 0 ∨ t1 = 0)
  | .waiting n1 t1 m o _ => m.encode = .ok o ∧ m.isResponse = false ∧ n1 ≠ 0 ∧ t1 ≠ 0
  | .stuck n1 t1 m => m.isResponse = false ∧ n1 ≠ 0 ∧ t1 ≠ 0
  | .matched n1 t1 m _ => m.isResponse = false ∧ n1 ≠ 0 ∧ t1 ≠ 0
  | .called n1 t1 m _ => m.isResponse = false ∧ m.hasCb = true ∧ n1 ≠ 0 ∧ t1 ≠ 0
  | .dispatched n1 t1 m _ => m.isResponse = false ∧ n1 ≠ 0 ∧ t1 ≠ 0
  | .gaveUp n1 t1 m => m.isResponse = false ∧ m.hasCb = true ∧ n1 ≠ 0 ∧ t1 ≠ 0
  | .kept n1 t1 m o => m.encode = .ok o ∧ m.isResponse = true ∧ n1 ≠ 0 ∧ t1 ≠ 0
  | .dropped n1 t1 _ => n1 ≠ 0 ∧ t1 ≠ 0
  | .leaked n1 t1 _ => n1 = 0 ∨ t1 = 0
  | _ => True

theorem transmissions_cons (id) (e : Event) (l) :
    transmissions id (e :: l) = transmissions id [e] ++ transmissions id l := by
  simp only [transmissions, List.filterMap_cons, List.filterMap_nil]
  split <;> simp

theorem transmissions_append (id) (l l' : List Event) :
    transmissions id (l ++ l') = transmissions id l ++ transmissions id l' := by simp [transmissions]

theorem respCalls_cons (id) (e : Event) (l) : respCalls id (e :: l) = respCalls id [e] ++ respCalls id l := by
  simp only [respCalls, List.filterMap_cons, List.filterMap_nil]
  split <;> simp

theorem frees_cons (id) (e : Event) (l) : frees id (e :: l) = frees id [e] + frees id l := by
  simp only [frees, List.countP_cons, List.countP_nil]; omega

theorem drops_cons (id) (e : Event) (l) : drops id (e :: l) = drops id [e] + drops id l := by
  simp only [drops, List.countP_cons, List.countP_nil]; omega

theorem not_about_obs {id} {e : Event} (h : ¬ About id e) :
    transmissions id [e] = [] ∧ respCalls id [e] = [] ∧ frees id [e] = 0 ∧ drops id [e] = 0 ∧ ¬ Ends id e ∧
      ∀ n1 t1 m, e ≠ .passed id n1 t1 m := by
  cases e with
  | send why i r o ok t => cases why <;> simp_all [About, transmissions, respCalls, frees, drops, Ends]
  | _ => simp_all [About, transmissions, respCalls, frees, drops, Ends]

structure Tally (id : Nat) (log : List Event) (s : Stage) : Prop where
  info : ∀ n1 t1 m, Event.passed id n1 t1 m ∈ log ↔ s.info = some (n1, t1, m)
  good : s.good
  unseen : s = .unseen → transmissions id log = []
  room : ∀ n1 t1 m, s.info = some (n1, t1, m) → (transmissions id log).length + s.room ≤ 1 + n1
  same : ∀ n1 t1 m, s.info = some (n1, t1, m) → ∀ x ∈ transmissions id log, x.1 = m.remote ∧ m.encode = .ok x.2
  calls : (respCalls id log).length = s.calls
  frees : frees id log = s.frees
  drops : drops id log = s.drops

/-- One step, in all these respects. -/
theorem Next.tally {id s e s'} (h : Next id s e s') (hg : s.good) :
    s'.good ∧ (respCalls id [e]).length + s.calls = s'.calls ∧ Verif.frees id [e] + s.frees = s'.frees ∧
    Verif.drops id [e] + s.drops = s'.drops ∧
    (s' = .unseen → s = .unseen ∧ transmissions id [e] = []) ∧
    (∀ n1 t1 m, s'.info = some (n1, t1, m) →
      (s.info = some (n1, t1, m) ∧ (transmissions id [e]).length + s'.room ≤ s.room ∨
       s = .unseen ∧ (transmissions id [e]).length + s'.room ≤ 1 + n1) ∧
      ∀ x ∈ transmissions id [e], x.1 = m.remote ∧ m.encode = .ok x.2) ∧
    (∀ n1 t1 m, (e = .passed id n1 t1 m ∨ s.info = some (n1, t1, m)) ↔ s'.info = some (n1, t1, m)) := by
  cases h
  case other ha =>
    obtain ⟨h1, h2, h3, h4, _, h6⟩ := not_about_obs ha
    refine ⟨hg, by simp [h2], by simp [h3], by simp [h4], fun h => ⟨h, h1⟩, ?_, ?_⟩
    · intro n1 t1 m hi
      exact ⟨.inl ⟨hi, by simp [h1]⟩, by simp [h1]⟩
    · intro n1 t1 m
      simp [h6]
  all_goals
    simp_all [Stage.good, Stage.calls, Stage.frees, Stage.drops, Stage.info, Stage.room, transmissions, respCalls,
      Verif.frees, Verif.drops, PMsg.wantsCb]
  all_goals
    rename PMsg => m
    cases h1 : m.isResponse <;> simp_all <;> omega

theorem Life.tally {id log s} (h : Life id log s) : Tally id log s := by
  induction h with
  | nil => exact ⟨by simp [Stage.info], trivial, fun _ => rfl, by simp [Stage.info], by simp [Stage.info], rfl, rfl, rfl⟩
  | @cons l s e s' _ hn ih =>
    obtain ⟨h1, h2, h3, h4, h5, h6, h7⟩ := hn.tally ih.good
    refine ⟨?_, h1, ?_, ?_, ?_, ?_, ?_, ?_⟩
    · intro n1 t1 m
      rw [List.mem_cons, ih.info, ← h7, eq_comm]
    · intro hu
      obtain ⟨h8, h9⟩ := h5 hu
      rw [transmissions_cons, h9, ih.unseen h8]; rfl
    · intro n1 t1 m hi
      rw [transmissions_cons, List.length_append]
      rcases (h6 n1 t1 m hi).1 with ⟨h8, h9⟩ | ⟨h8, h9⟩
      · have := ih.room n1 t1 m h8; omega
      · have := ih.unseen h8
        rw [this]; simpa using h9
    · intro n1 t1 m hi x hx
      rw [transmissions_cons, List.mem_append] at hx
      rcases hx with hx | hx
      · exact (h6 n1 t1 m hi).2 x hx
      · rcases (h6 n1 t1 m hi).1 with ⟨h8, _⟩ | ⟨h8, _⟩
        · exact ih.same n1 t1 m h8 x hx
        · rw [ih.unseen h8] at hx; cases hx
    · rw [respCalls_cons, List.length_append, ih.calls, h2]
    · rw [frees_cons, ih.frees, h3]
    · rw [drops_cons, ih.drops, h4]

/-- Stages in which all transmissions allowed so far were made. -/
def Stage.active : Stage → Bool
  | .passed .. | .refused .. | .sent .. | .waiting .. => true
  | _ => false

theorem Next.exact {id s e s'} (h : Next id s e s') (ha : s'.active = true) :
    (s.active = true ∧ s'.info = s.info ∧ (transmissions id [e]).length + s'.room = s.room) ∨
    (s = .unseen ∧ ∃ n1 t1 m, s'.info = some (n1, t1, m) ∧ (transmissions id [e]).length + s'.room = 1 + n1) := by
  cases h
  case other hab =>
    obtain ⟨h1, _⟩ := not_about_obs hab
    exact .inl ⟨ha, rfl, by simp [h1]⟩
  all_goals simp_all [Stage.active, Stage.info, Stage.room, transmissions]
  all_goals omega

theorem Life.exact {id log s} (h : Life id log s) (ha : s.active = true) {n1 t1 m} (hi : s.info = some (n1, t1, m)) :
    (transmissions id log).length + s.room = 1 + n1 := by
  induction h with
  | nil => cases ha
  | @cons l s e s' hl hn ih =>
    rw [transmissions_cons, List.length_append]
    rcases hn.exact ha with ⟨h1, h2, h3⟩ | ⟨rfl, n1', t1', m', h2, h3⟩
    · have := ih h1 (h2 ▸ hi); omega
    · rw [hi] at h2
      cases h2
      rw [hl.tally.unseen rfl]
      simpa using h3

/-- Once the response was received, the failure reported or the message removed, it is not sent again. -/
theorem Next.ended {id s e s'} (h : Next id s e s') (hs : s.ended = true ∨ Ends id e) :
    s'.ended = true ∧ (s.ended = true → transmissions id [e] = []) := by
  cases h
  case other ha =>
    obtain ⟨h1, _, _, _, h5, _⟩ := not_about_obs ha
    exact ⟨hs.resolve_right h5, fun _ => h1⟩
  all_goals simp_all [Stage.ended, transmissions, Ends]

theorem Life.uncons {id e l s} (h : Life id (e :: l) s) : ∃ s0, Life id l s0 ∧ Next id s0 e s := by
  cases h with
  | cons h hn => exact ⟨_, h, hn⟩

theorem Life.ended {id} : ∀ {l2 : List Event} {e l1 s}, Life id (l2 ++ e :: l1) s → Ends id e →
    s.ended = true ∧ transmissions id l2 = []
  | [], e, l1, s, h, he => by
    obtain ⟨s0, _, hn⟩ := h.uncons
    exact ⟨(hn.ended (.inr he)).1, rfl⟩
  | x :: l2, e, l1, s, h, he => by
    obtain ⟨s0, h0, hn⟩ := h.uncons
    obtain ⟨h1, h2⟩ := Life.ended h0 he
    obtain ⟨h3, h4⟩ := hn.ended (.inl h1)
    refine ⟨h3, ?_⟩
    rw [transmissions_cons, h4 h1, h2]; rfl

end Verif
