/-
C123: only the time that passes matters.
-/
import Verif.EndpointShift
import Verif.PropsNet

namespace Verif.Spec
open Verif

/-- The same network, but for the clocks: that of the endpoint at `a` shows `d a` ms more. -/
def otherClocks (d : Sockaddr → Nat) (w : Net) : Net := fun a => later (d a) (w a)

end Verif.Spec

namespace Verif.Props
open Verif Spec

/-- C123: what an endpoint does depends on the time that passes, not on when that is.  A history that begins `d` ms later, in the same state otherwise, has the same
outcome (also if that is a crash), `d` ms later: the same is sent, and callbacks are called, in the same order, each exactly `d` ms later. -/
theorem C123_later (d : Nat) (ops : List Op) (ep : Ep) : exec ops (later d ep) = Res.later d (exec ops ep) := by
  have h := exec_shift (d := d) ops ep
  cases hx : exec ops ep <;> cases hy : exec ops (later d ep) <;> rw [hx, hy] at h <;> simp only [RR] at h
  · rw [h]; rfl
  · rw [h]; rfl
  all_goals rfl

/-- C123: an endpoint that is created later (and has the same recovery time stamp) is the same, later. -/
theorem C123_created (d : Nat) (cfg n1 t1 keepResp unixTime now) :
    Ep.create cfg n1 t1 keepResp unixTime (now + d) = later d (Ep.create cfg n1 t1 keepResp unixTime now) := rfl

theorem op_later {d : Nat} {op : Op} {ep ep' : Ep} (h : op.step ep = .ok ep') : op.step (later d ep) = .ok (later d ep') := by
  have h1 := op_shift (d := d) ep op
  rw [h] at h1
  cases hy : op.step (later d ep) <;> rw [hy] at h1 <;> simp only [RR] at h1
  rw [h1]

theorem set_clocks (d : Sockaddr → Nat) (w : Net) (a : Sockaddr) (ep : Ep) : (otherClocks d w).set a (later (d a) ep) = otherClocks d (w.set a ep) := by
  funext b
  unfold Net.set otherClocks
  dsimp only
  by_cases h : b = a
  · rw [if_pos h, if_pos h, h]
  · rw [if_neg h, if_neg h]

/-- C123, in a network: the clocks of the endpoints need not agree.  Whatever happens in a network, happens likewise if each clock is off by its own amount. -/
theorem C123_clocks (d : Sockaddr → Nat) {w w' : Net} (h : NetStep w w') : NetStep (otherClocks d w) (otherClocks d w') := by
  cases h with
  | «local» a op hl hs =>
    rw [← set_clocks]
    exact .local a op hl (op_later hs)
  | deliver s r rs hm hs =>
    rw [← set_clocks]
    refine .deliver s r rs (List.mem_map.2 ⟨_, hm, rfl⟩) ?_
    exact op_later (op := .rx s _ rs) hs

/-- C123: and so for all that can become of it. -/
theorem C123_clocks_reached (d : Sockaddr → Nat) {w : Net} (h : NetReached w) : NetReached (otherClocks d w) := by
  induction h with
  | start w hw =>
    refine .start _ fun a => ?_
    obtain ⟨cfg, n1, t1, keepResp, unixTime, now, e⟩ := hw a
    exact ⟨cfg, n1, t1, keepResp, unixTime, now + d a, by unfold otherClocks; rw [e]; rfl⟩
  | step _ hs ih => exact .step ih (C123_clocks d hs)

/-! ### Example -/

/-- When what was sent. -/
def sendTimes (x : Res Ep) : List Nat :=
  match x with
  | .ok ep => ep.log.filterMap fun e => match e with | .send _ _ _ _ _ t => some t | _ => none
  | _ => []

/-- A request is sent 5 ms after the beginning, and again after T1 (100 ms): at 105 and 5 ms, or 7000 ms later. -/
example : sendTimes (exec [.advance 5, .app (.bind true (.tx exReq true .done .done)), .advance 100, .reqTimer 0 true .done] exEp) = [105, 5] ∧
    sendTimes (exec [.advance 5, .app (.bind true (.tx exReq true .done .done)), .advance 100, .reqTimer 0 true .done] (later 7000 exEp)) = [7105, 7005] := by
  set_option maxRecDepth 100000 in exact ⟨rfl, rfl⟩

end Verif.Props
