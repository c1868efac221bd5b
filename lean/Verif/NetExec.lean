/-
Networks that can be run, for the examples: histories of a network, and checks of what its log contains.
-/
import Verif.NetLemmas

namespace Verif
open Spec Props

/-- What happens in a network: something at an endpoint; or the datagram `o`, which was sent from `s` to `r`, arrives. -/
inductive NetOp where
  | at (a : Sockaddr) (op : Op)
  | deliver (s r : Sockaddr) (o : List UInt8) (rs : List React)

/-- The datagram was sent. -/
def Event.carries (r : Sockaddr) (o : List UInt8) : Event → Bool
  | .send _ _ r' o' true _ => decide (r' = r ∧ o' = o)
  | _ => false

/-- Not the arrival of a datagram. -/
def Op.localB : Op → Bool
  | .rx .. => false
  | _ => true

/-- The network afterwards, if this is possible. -/
def NetOp.step : NetOp → Net → Option Net
  | .at a op, w =>
    if op.localB then
      match op.step (w a) with
      | .ok ep => some (w.set a ep)
      | _ => none
    else none
  | .deliver s r o rs, w =>
    if (w s).log.any (Event.carries r o) then
      match (w r).rxDatagram s o rs with
      | .ok ep => some (w.set r ep)
      | _ => none
    else none

/-- The endpoint that changes. -/
def NetOp.where : NetOp → Sockaddr
  | .at a _ => a
  | .deliver _ r _ _ => r

/-- A history. -/
def netExec : List NetOp → Net → Option Net
  | [], w => some w
  | op :: ops, w => (op.step w).bind (netExec ops)

theorem NetOp.netStep {op : NetOp} {w w' : Net} (h : op.step w = some w') :
    NetStep w w' ∧ ∀ a, a ≠ op.where → w' a = w a := by
  cases op with
  | «at» a op =>
    simp only [NetOp.step] at h
    split at h
    · rename_i hl
      split at h
      · rename_i ep hs
        cases h
        refine ⟨.local a op (by cases op <;> first | trivial | cases hl) hs, fun b hb => Net.set_other _ _ hb⟩
      · cases h
    · cases h
  | deliver s r o rs =>
    simp only [NetOp.step] at h
    split at h
    · rename_i hl
      split at h
      · rename_i ep hs
        cases h
        obtain ⟨e, he, hc⟩ := List.any_eq_true.1 hl
        refine ⟨?_, fun b hb => Net.set_other _ _ hb⟩
        unfold Event.carries at hc
        split at hc
        · obtain ⟨rfl, rfl⟩ := of_decide_eq_true hc
          exact .deliver s _ rs he hs
        · cases hc
      · cases h
    · cases h

theorem netExec_reached : ∀ {ops : List NetOp} {w w' : Net}, NetReached w → netExec ops w = some w' →
    NetReached w' ∧ ∀ a, a ∉ ops.map NetOp.where → w' a = w a
  | [], w, w', hw, h => by cases h; exact ⟨hw, fun _ _ => rfl⟩
  | op :: ops, w, w', hw, h => by
    obtain ⟨w1, h1, h2⟩ := Option.bind_eq_some_iff.1 h
    obtain ⟨g1, g2⟩ := NetOp.netStep h1
    obtain ⟨g3, g4⟩ := netExec_reached (.step hw g1) h2
    refine ⟨g3, fun a ha => ?_⟩
    simp only [List.map_cons, List.mem_cons, not_or] at ha
    rw [g4 a ha.2, g2 a ha.1]

/-! ### Checks -/

/-- Some values that are in range. -/
def leafB : IeVal → Bool
  | .cause v => v < 256
  | .u32 v => v < 2 ^ 32
  | .u16 v => v < 65536
  | .nodeId (.v4 (.inet n 0)) => n < 2 ^ 32
  | .cpFeatures bits => bits.length = 1
  | .upFeatures bits => bits.length = 6
  | _ => false

theorem leafB_ok {v : IeVal} (h : leafB v = true) : InRange v := by
  unfold leafB at h
  split at h
  case h_4 n => exact ⟨n, by simpa using h, rfl⟩
  all_goals first | cases h | simpa [InRange] using h

/-- Structs of such values. -/
def flatB : Fields → Struct IeVal → Bool
  | .nil, [] => true
  | .cons _ kind (.ie k) f, vs :: s =>
    least kind ≤ vs.length && vs.length ≤ most kind &&
    (vs.all fun v => match v with
      | .leaf x => x.kind = k && leafB x
      | _ => false) && flatB f s
  | _, _ => false

theorem flatB_ok : ∀ {f : Fields} {s : Struct IeVal}, flatB f s = true → GoodStruct f s
  | .nil, [], _ => by simp [GoodStruct, StructOf]
  | .nil, _ :: _, h => by simp [flatB] at h
  | .cons _ kind (.group _) f, _, h => by simp [flatB] at h
  | .cons _ kind (.ie k) f, [], h => by simp [flatB] at h
  | .cons _ kind (.ie k) f, vs :: s, h => by
    simp only [flatB, Bool.and_eq_true, decide_eq_true_eq] at h
    obtain ⟨⟨⟨h1, h2⟩, h3⟩, h4⟩ := h
    refine ⟨⟨h1, h2⟩, ?_, flatB_ok h4⟩
    intro v hv
    have := List.all_eq_true.1 h3 v hv
    cases v with
    | node s => cases this
    | leaf x =>
      simp only [Bool.and_eq_true, decide_eq_true_eq] at this
      exact ⟨this.1, leafB_ok this.2⟩

/-- A message that can be sent. -/
def properB (m : PMsg) : Bool :=
  m.encoded.isNone && decide (m.h.version < 8) && decide (m.h.type < 256) && decide (m.h.seq < 2 ^ 24) &&
  !m.h.prioPresent && !m.h.seidPresent && decide (m.h.prio = 0) && decide (m.h.seid = 0) &&
  (m.isResponse == decide (m.h.type ∈ responseTypes)) &&
  match message m.h.type with
  | some f => flatB f m.ies && decide ((msgOctets false m.h (structOctets f m.ies)).length < 2048)
  | none => false

/-- Nothing improper. -/
def Event.properB : Event → Bool
  | .passed _ _ _ m => Verif.properB m
  | .send .direct _ _ _ _ _ => false
  | _ => true

theorem properB_ok {m : PMsg} (h : properB m = true) :
    m.encoded = none ∧ Transportable m.h m.ies ∧ (m.isResponse = true ↔ m.h.type ∈ responseTypes) := by
  unfold properB at h
  simp only [Bool.and_eq_true, decide_eq_true_eq, Bool.not_eq_true', Option.isNone_iff_eq_none, beq_iff_eq] at h
  obtain ⟨⟨⟨⟨⟨⟨⟨⟨⟨h1, h2⟩, h3⟩, h4⟩, h5⟩, h6⟩, h7⟩, h8⟩, h9⟩, h10⟩ := h
  split at h10
  · rename_i f hf
    simp only [Bool.and_eq_true, decide_eq_true_eq] at h10
    refine ⟨h1, ⟨⟨h2, h3, h4, ?_, ?_, ?_⟩, f, hf, flatB_ok h10.1, h10.2⟩, ?_⟩
    · rw [h5]; simpa using h7
    · rw [h6]; simpa using h8
    · rw [h5]; simp
    · rw [h9]; simp
  · cases h10

/-- The applications at these addresses are proper. -/
def Net.properB (w : Net) (as : List Sockaddr) : Bool := as.all fun a => (w a).log.all Event.properB

theorem Net.properB_ok {w : Net} {as : List Sockaddr} (h : w.properB as = true)
    (h0 : ∀ a, a ∉ as → (w a).log.all Event.properB = true) : Proper w := by
  have all : ∀ a, ∀ e ∈ (w a).log, e.properB = true := by
    intro a e he
    by_cases ha : a ∈ as
    · exact List.all_eq_true.1 (List.all_eq_true.1 h a ha) e he
    · exact List.all_eq_true.1 (h0 a ha) e he
  refine ⟨?_, ?_⟩
  · intro a id n1 t1 m hm
    exact Verif.properB_ok (all a _ hm)
  · intro a id r o ok t hm
    cases all a _ hm

/-- The responses that were passed answer received requests. -/
def responsiveB (log : List Event) : Bool :=
  log.all fun e => match e with
    | .passed _ _ _ m => !m.isResponse || log.any fun e => match e with
      | .received _ y => !y.isResponse && decide (y.remote = m.remote ∧ y.h.seq = m.h.seq ∧ m.h.type = y.h.type + 1)
      | _ => false
    | _ => true

theorem responsiveB_ok {w : Net} (h : ∀ a, responsiveB (w a).log = true) : Responsive w := by
  intro a id n1 t1 m hm hr
  have := List.all_eq_true.1 (h a) _ hm
  dsimp only at this
  rw [hr] at this
  simp only [Bool.not_true, Bool.false_or] at this
  obtain ⟨e, he, hx⟩ := List.any_eq_true.1 this
  split at hx
  · rename_i k y
    simp only [Bool.and_eq_true, Bool.not_eq_true', decide_eq_true_eq] at hx
    exact ⟨k, y, he, hx⟩
  · cases hx

end Verif
