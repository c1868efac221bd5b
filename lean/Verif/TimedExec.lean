/-
Networks with time that can be run, for the examples.
-/
import Verif.TimedNet
import Verif.NetExec

namespace Verif
open Spec Props

/-- What happens: something at an endpoint; time passes at an endpoint; or the datagram `o`, which was sent from `s` to `r`,
arrives. -/
inductive TimedOp where
  | at (a : Sockaddr) (op : Op)
  | pass (a : Sockaddr) (ms : Nat)
  | deliver (s r : Sockaddr) (o : List UInt8) (rs : List React)

/-- The datagram was sent, at most `D` ms ago. -/
def Event.carriesNow (r : Sockaddr) (o : List UInt8) (D now : Nat) : Event → Bool
  | .send _ _ r' o' true t => decide (r' = r ∧ o' = o ∧ t ≤ now ∧ now ≤ t + D)
  | _ => false

def Op.quietB : Op → Bool
  | .rx .. | .advance .. => false
  | _ => true

/-- Requests are answered at once. -/
def answersB (l : List Event) : Bool :=
  l.all fun e => match e with
    | .received k y => y.isResponse || decide (y.h.type = 1) ||
      !(l.any fun e => match e with | .dispatch j none => decide (j = k) | _ => false) ||
      l.any fun e => match e with
        | .passed id _ _ resp => resp.isResponse && decide (resp.h.seq = y.h.seq) &&
          l.any fun e => match e with | .returned i none => decide (i = id) | _ => false
        | _ => false
    | _ => true

theorem answersB_ok {l : List Event} (h : answersB l = true) : AnswersAtOnce l := by
  intro k y hy hd hr ht
  have := List.all_eq_true.1 h _ hy
  have hdl : (l.any fun e => match e with | .dispatch j none => decide (j = k) | _ => false) = true :=
    List.any_eq_true.2 ⟨_, hd, by simp⟩
  dsimp only at this
  rw [hr, hdl] at this
  simp only [Bool.false_or, decide_eq_false ht, Bool.not_true] at this
  obtain ⟨e, he, hx⟩ := List.any_eq_true.1 this
  split at hx
  · rename_i id n1 t1 resp
    simp only [Bool.and_eq_true, decide_eq_true_eq] at hx
    obtain ⟨⟨h1, h2⟩, h3⟩ := hx
    obtain ⟨e', he', hx⟩ := List.any_eq_true.1 h3
    split at hx
    · cases of_decide_eq_true hx
      exact ⟨id, n1, t1, resp, he, h1, h2, he'⟩
    · cases hx
  · cases hx

/-- The network afterwards, if this is possible; `all`: whether the applications answer at once. -/
def TimedOp.step (D : Nat) (all : Bool) : TimedOp → Net → Option Net
  | .at a op, w =>
    if op.quietB then
      match op.step (w a) with
      | .ok ep => some (w.set a ep)
      | _ => none
    else none
  | .pass a ms, w =>
    if ((w a).reqs ++ (w a).resps).all fun e => e.timer.all fun d => decide ((w a).now + ms ≤ d) then
      some (w.set a { w a with now := (w a).now + ms })
    else none
  | .deliver s r o rs, w =>
    if (w s).log.any (Event.carriesNow r o D (w r).now) then
      match (w r).rxDatagram s o rs with
      | .ok ep => if !all || answersB (ep.log.take (ep.log.length - (w r).log.length)) then some (w.set r ep) else none
      | _ => none
    else none

/-- The endpoint that changes. -/
def TimedOp.where : TimedOp → Sockaddr
  | .at a _ => a
  | .pass a _ => a
  | .deliver _ r _ _ => r

def timedExec (D : Nat) (all : Bool) : List TimedOp → Net → Option Net
  | [], w => some w
  | op :: ops, w => (op.step D all w).bind (timedExec D all ops)

theorem TimedOp.reached {D all} {op : TimedOp} {w w' : Net} (hw : TimedReached D (fun _ => all = true) w)
    (h : op.step D all w = some w') : TimedReached D (fun _ => all = true) w' ∧ ∀ a, a ≠ op.where → w' a = w a := by
  cases op with
  | «at» a op =>
    simp only [TimedOp.step] at h
    split at h
    · rename_i hl
      split at h
      · rename_i ep hs
        cases h
        exact ⟨.local a op hw (by cases op <;> first | trivial | cases hl) (by rintro ms rfl; cases hl) hs,
          fun b hb => Net.set_other _ _ hb⟩
      · cases h
    · cases h
  | pass a ms =>
    simp only [TimedOp.step] at h
    split at h
    · rename_i hl
      cases h
      refine ⟨.advance a ms hw ?_, fun b hb => Net.set_other _ _ hb⟩
      intro e he d hd
      have := List.all_eq_true.1 hl e he
      rw [hd] at this
      simpa using this
    · cases h
  | deliver s r o rs =>
    simp only [TimedOp.step] at h
    split at h
    · rename_i hl
      split at h
      · rename_i ep hs
        split at h
        · rename_i hans
          cases h
          obtain ⟨e, he, hc⟩ := List.any_eq_true.1 hl
          refine ⟨?_, fun b hb => Net.set_other _ _ hb⟩
          unfold Event.carriesNow at hc
          split at hc
          · obtain ⟨rfl, rfl, h1, h2⟩ := of_decide_eq_true hc
            obtain ⟨l, hlog, _⟩ := (Op.onward (op := .rx s _ rs) (hw.net.reached _) hs).log
            refine .deliver s _ rs hw he h1 h2 hs hlog fun hall => answersB_ok ?_
            rw [hall, hlog] at hans
            simpa using hans
          · cases hc
        · cases h
      · cases h
    · cases h

theorem timedExec_reached {D all} : ∀ {ops : List TimedOp} {w w' : Net}, TimedReached D (fun _ => all = true) w →
    timedExec D all ops w = some w' →
    TimedReached D (fun _ => all = true) w' ∧ ∀ a, a ∉ ops.map TimedOp.where → w' a = w a
  | [], w, w', hw, h => by cases h; exact ⟨hw, fun _ _ => rfl⟩
  | op :: ops, w, w', hw, h => by
    obtain ⟨w1, h1, h2⟩ := Option.bind_eq_some_iff.1 h
    obtain ⟨g1, g2⟩ := TimedOp.reached hw h1
    obtain ⟨g3, g4⟩ := timedExec_reached g1 h2
    refine ⟨g3, fun a ha => ?_⟩
    simp only [List.map_cons, List.mem_cons, not_or] at ha
    rw [g4 a ha.2, g2 a ha.1]

end Verif
