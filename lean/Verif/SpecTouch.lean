/-
What a received message may change in an endpoint whose callbacks do nothing (C119).
-/
import Verif.SpecEndpoint

namespace Verif.Spec
open Verif

/-- The application's callbacks call no function of the library, upon a received message.  (set_msg_ctx_cb() may associate the message
with a CP peer or a session.) -/
def CallsNothing (r : React) : Prop := r.onCtx = .done ∧ r.onResp = .done ∧ r.onRx = .done

/-- What the answer to an Association Setup Request does to the CP peer that asked: if it waits for it, it is associated if the request was
accepted, and will retry after T26 otherwise; `none`: nothing.  (No CP peer is ever in the state GRACEFUL_RELEASE, C60.) -/
def peerAfter (now t26 : Nat) (accepted : Bool) (p : Peer) : Option Peer :=
  match p.state, accepted with
  | .waitAssoc, true => some { p with state := .associated, timer := none }
  | .waitAssoc, false => some { p with state := .waitRetry, timer := if t26 = 0 then none else some (now + t26) }
  | .gracefulRelease, false => some { p with state := .waitRetry, timer := if t26 = 0 then none else some (now + t26) }
  | _, _ => none

/-- The CP peers after the answer to a request with context `ctx`. -/
def peersAfter (ep : Ep) (ctx : Ctx) (accepted : Bool) : List Peer :=
  match ep.peers.find? (fun p => ctx.peerFi = some p.fi) with
  | some p =>
    match peerAfter ep.now ep.t26 accepted p with
    | some q => ep.peers.map fun x => if x.fi = p.fi then q else x
    | none => ep.peers
  | none => ep.peers

/-- What the endpoint has to remember after it has received message `m`: a response ends the pending request that has its sequence number (the latest if
there are several), which releases its use counts, and tells the CP peer if that request was an Association Setup Request of it; and nothing else. -/
def afterMessage (ep : Ep) (m : PMsg) : Ep :=
  if m.isResponse then
    match ep.reqs.find? (fun e => e.m.h.seq == m.h.seq) with
    | some e =>
      { ep with
        reqs := ep.reqs.eraseP (fun e => e.m.h.seq == m.h.seq)
        peers := if e.m.ctx.respCb = some .assoc then peersAfter ep e.m.ctx m.accepted else ep.peers
        use := fun u => ep.use u - e.m.ctx.uses.count u }
    | none => ep
  else ep

end Verif.Spec
