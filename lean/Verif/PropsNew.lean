/-
C125: an endpoint with nothing pending is as good as new.
-/
import Verif.PropsNoise2

namespace Verif.Spec
open Verif

/-- A new endpoint (osmo_pfcp_endpoint_create()) with the configuration, clock, recovery time stamp, socket, last sequence number, CP peers and use counts of this one.  It
has no messages and no past.  (`draws` and `resets` only count, for specifications.) -/
def asNew (ep : Ep) : Ep :=
  { Ep.create ep.cfg ep.n1 ep.t1 ep.keepResp 0 ep.now with
    rts := ep.rts, sock := ep.sock, seq := ep.seq, peers := ep.peers, t26 := ep.t26, use := ep.use, draws := ep.draws, resets := ep.resets }

/-- What becomes of `a0` and of `b0` is the same: they end up in the same state, after the same events, but for the numbers of messages; or they crash in the same way. -/
inductive SameOutcome (f : Nat → Nat) (a0 b0 : Ep) : Res Ep → Res Ep → Prop
  | ok {a b l} : SameState f a b → a.log = l ++ a0.log → b.log = l.map (renEvent f) ++ b0.log → SameOutcome f a0 b0 (.ok a) (.ok b)
  | err {e} : SameOutcome f a0 b0 (.err e) (.err e)
  | abort : SameOutcome f a0 b0 .abort .abort
  | ub : SameOutcome f a0 b0 .ub .ub
  | diverge : SameOutcome f a0 b0 .diverge .diverge

end Verif.Spec

namespace Verif.Props
open Verif Spec

theorem acts_ren {R : Ren} {n : Nat} : ∀ (acts : List Act) {c b : Ep}, Sim R n c b → Same1 R n (runActs acts c) (runActs acts b)
  | [], _, _, h => h
  | x :: acts, _, _, h => RR.bind (act_ren h x) fun _ _ h => acts_ren acts h

theorem pair_runs {f d} {a b : Ep} (h : Pair f d a b) (acts : List Act) : SameOutcome f a b (runActs acts a) (runActs acts b) := by
  let R : Ren := ⟨f, d, a.nextId, b.log, h.inj, h.shift⟩
  let I : Ren := ⟨fun i => i, 0, a.nextId, a.log, fun _ _ h => h, fun _ _ => rfl⟩
  have hlow : Low { a with log := [] } := ⟨h.reqs, h.resps, fun _ h => by cases h⟩
  have s1 : Sim R a.nextId { a with log := [] } b := ⟨h.eq, Nat.le_refl _, Nat.le_refl _, hlow⟩
  have s2 : Sim I a.nextId { a with log := [] } a := by
    refine ⟨?_, Nat.le_refl _, Nat.le_refl _, hlow⟩
    show a = { a with reqs := a.reqs.map fun e => e, resps := a.resps.map fun e => e, busy := a.busy.map fun i => i, nextId := a.nextId + 0, log := [] ++ a.log }
    simp only [List.map_id', Nat.add_zero, List.nil_append]
  have h1 := acts_ren acts s1
  have h2 := acts_ren acts s2
  cases hc : runActs acts { a with log := [] } <;> rw [hc] at h1 h2 <;> cases ha : runActs acts a <;> rw [ha] at h2 <;>
    first
    | exact h2.elim
    | (cases hb : runActs acts b <;> rw [hb] at h1 <;> first | exact h1.elim | skip)
  · rename_i c' a' b'
    have t1 : Sim R a.nextId c' b' := h1
    have t2 : Sim I a.nextId c' a' := h2
    have e2 : a' = { c' with log := c'.log ++ a.log } := by
      rw [t2.eq]
      show ({ c' with reqs := c'.reqs.map fun e => e, resps := c'.resps.map fun e => e, busy := c'.busy.map fun i => i, nextId := c'.nextId + 0
                      log := c'.log.map (renEvent fun i => i) ++ a.log } : Ep) = _
      rw [List.map_congr_left (fun e _ => renEvent_id e)]
      simp only [List.map_id', Nat.add_zero]
    refine .ok (l := c'.log) ?_ (by rw [e2]) (by rw [t1.eq]; rfl)
    unfold SameState
    rw [t1.eq, e2]
    rfl
  · rw [show _ = _ from (h1 : _ = _).symm.trans (h2 : _ = _)]; exact .err
  · exact .abort
  · exact .ub
  · exact .diverge

/-- C125: the past does not matter.  Whatever happens from now on, an endpoint does what any endpoint in the same state does, whatever either has done before. -/
theorem C125_past {a b : Ep} (h : Reached a) (hb : b = { a with log := b.log }) (acts : List Act) :
    SameOutcome (fun i => i) a b (runActs acts a) (runActs acts b) := by
  have hp := Pair.start h
  refine pair_runs (d := 0) ⟨hp.inj, hp.shift, hp.lt, ?_, hp.reqs, hp.resps⟩ acts
  show b = { a with reqs := a.reqs.map fun e => e, resps := a.resps.map fun e => e, busy := a.busy.map fun i => i, nextId := a.nextId + 0, log := b.log }
  simp only [List.map_id', Nat.add_zero]
  exact hb

/-- C125: an endpoint that waits for no response and keeps no response is as good as new: whatever happens from now on, it does what a new endpoint does that has the same
configuration, CP peers and last sequence number: the same octets are sent to the same addresses at the same times, the same callbacks are called, and the outcome is the
same, be it a crash. -/
theorem C125_as_new {ep : Ep} (h : Reached ep) (h1 : ep.reqs = []) (h2 : ep.resps = []) (acts : List Act) :
    SameOutcome (fun i => i + ep.nextId) (asNew ep) ep (runActs acts (asNew ep)) (runActs acts ep) := by
  have hb : ep.busy = [] := h.inv.busy
  refine pair_runs (d := ep.nextId) ⟨fun i j hij => Nat.add_right_cancel hij, fun _ _ => rfl, fun i hi => (Nat.not_lt_zero _ hi).elim, ?_, fun _ h => (List.not_mem_nil h).elim, fun _ h => (List.not_mem_nil h).elim⟩ acts
  show ep = { ep with reqs := [], resps := [], busy := [], nextId := 0 + ep.nextId, log := ep.log }
  rw [Nat.zero_add]
  obtain ⟨cfg, n1, t1, keepResp, sock, rts, seq, reqs, resps, now, nextId, busy, draws, resets, log, peers, t26, use⟩ := ep
  cases h1
  cases h2
  cases hb
  rfl

theorem close_empty {ep a : Ep} (ha : ep.close = .ok a) : a.reqs = [] ∧ a.resps = [] := by
  unfold Ep.close at ha
  split at ha
  · cases ha
  · obtain ⟨c, -, hc⟩ := Res.bind_eq_ok ha
    cases hc
    exact ⟨rfl, rfl⟩

/-- C125: so binding an endpoint again is a restart, which forgets all messages. -/
theorem C125_restart {ep ep' : Ep} (h : Reached ep) {ok} (hx : Op.step (.app (.bind ok .done)) ep = .ok ep') (acts : List Act) :
    SameOutcome (fun i => i + ep'.nextId) (asNew ep') ep' (runActs acts (asNew ep')) (runActs acts ep') := by
  have h' := h.op _ hx
  obtain ⟨c, hc, hd⟩ := Res.bind_eq_ok (show (ep.bind ok).bind _ = _ from hx)
  cases hd
  obtain ⟨a, ha, hb⟩ := Res.bind_eq_ok hc
  obtain ⟨h1, h2⟩ := close_empty ha
  cases hb
  exact C125_as_new h' h1 h2 acts

/-! ### Example -/

/-- The last events: what was sent, and which callbacks were called (latest first). -/
def lastDone (n : Nat) (x : Res Ep) : List (Nat × List UInt8) :=
  match x with
  | .ok ep => (ep.log.take n).filterMap fun e => match e with | .send _ i _ o _ _ => some (i, o) | .respCb i _ _ => some (i, []) | _ => none
  | _ => []

/-- An endpoint sends two requests, and is bound again. -/
def exRebound : Ep :=
  match exec [.app (.bind true (.tx exReq true .done (.tx exReq true .done (.bind true .done))))] exEp with
  | .ok ep => ep
  | _ => exEp

/-- Then it sends a request, twice, and gives up; so does the new endpoint. -/
def exActs : List Act := [.app (.tx exReq true .done .done), .advance 100000, .reqTimer 0 true .done, .advance 100000, .reqTimer 0 false .done]

example : exRebound.reqs.length = 0 ∧ exRebound.resps.length = 0 ∧ exRebound.nextId = 2 ∧ exRebound.log.length = 11 ∧
    (lastDone 7 (runActs exActs exRebound)).map (·.1) = [2, 2, 2, 2] ∧
    (lastDone 7 (runActs exActs (asNew exRebound))).map (·.1) = [0, 0, 0, 0] ∧
    (lastDone 7 (runActs exActs exRebound)).map (·.2) = (lastDone 7 (runActs exActs (asNew exRebound))).map (·.2) := by
  decide +kernel

end Verif.Props
