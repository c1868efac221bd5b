/-
What can be read from the log of an endpoint about CP peers and use counts.
-/
import Verif.SpecEndpoint
import Verif.SpecMsg

namespace Verif

/-- The messages that have been passed to osmo_pfcp_endpoint_tx() and not been deallocated, with their
numbers. -/
def live : List Event → List (Nat × PMsg)
  | [] => []
  | .passed id _ _ m :: l => (id, m) :: live l
  | .freed id :: l => (live l).filter fun x => x.1 ≠ id
  | _ :: l => live l

/-- How many of these messages hold the use count `u` (use count and token). -/
def holders (u : Nat × Nat) (log : List Event) : Nat := ((live log).map fun x => x.2.ctx.uses.count u).sum

/-- osmo_pfcp_endpoint_tx() for message `id` has returned success. -/
def returnedIn (id : Nat) : List Event → Bool
  | [] => false
  | .returned i none :: l => i = id || returnedIn id l
  | _ :: l => returnedIn id l

/-- What is left of the context `c` that message `id` had when it was passed to osmo_pfcp_endpoint_tx(): each call of
osmo_pfcp_endpoint_invalidate_ctx() since osmo_pfcp_endpoint_tx() has returned success takes something. -/
def ctxAfter (id : Nat) (c : Ctx) : List Event → Ctx
  | [] => c
  | .invalidated fi :: l => if returnedIn id l then (ctxAfter id c l).without fi else ctxAfter id c l
  | _ :: l => ctxAfter id c l

/-- How often the use count `u` was lost: by messages that had taken it, and did not have it anymore when they were deallocated. -/
def lostUses (u : Nat × Nat) : List Event → Nat
  | [] => 0
  | .freed id :: l => lostUses u l + (((live l).filter fun x => x.1 = id).map fun x =>
      x.2.ctx.uses.count u - (ctxAfter id x.2.ctx l).uses.count u).sum
  | _ :: l => lostUses u l

/-- No message has lost this use count: osmo_pfcp_endpoint_invalidate_ctx() was never called for an FSM
instance that a message with this use count belonged to. -/
def Undisturbed (u : Nat × Nat) (log : List Event) : Prop :=
  ∀ fi id n1 t1 m, .invalidated fi ∈ log → .passed id n1 t1 m ∈ log →
    (m.ctx.peerFi = some fi → m.ctx.peerUse ≠ some u) ∧ (m.ctx.sessionFi = some fi → m.ctx.sessionUse ≠ some u)

/-- The states that the CP peer `fi` has had, the latest first. -/
def peerStates (fi : Nat) : List Event → List PState
  | [] => [.disabled]
  | .peer f (.state s) :: l => if f = fi then s :: peerStates fi l else peerStates fi l
  | _ :: l => peerStates fi l

/-- T26 (in ms): as it was set last; 15 seconds by default (pfcp_endpoint.c:126-128; of the global definitions, pfcp_cp_peer.c:68-72, whatever those of the endpoint are). -/
def t26In : List Event → Nat
  | [] => 15000
  | .configT26 t :: _ => t
  | _ :: l => t26In l

/-- Whether the CP peer `fi` has an assoc_cb. -/
def cbIn (fi : Nat) : List Event → Bool
  | [] => false
  | .peer f (.cbSet b) :: l => if f = fi then b else cbIn fi l
  | _ :: l => cbIn fi l

/-- Message `id` is an Association Setup Request of the CP peer `fi`, which it has sent (or tried to send) to
`remote` with sequence number `seq`. -/
def AssocReqOf (fi : Nat) (remote : Sockaddr) (id seq : Nat) (log : List Event) : Prop :=
  ∃ n1 t1 q, .passed id n1 t1 q ∈ log ∧ q.h.type = 5 ∧ q.remote = remote ∧ q.h.seq = seq ∧
    q.ctx.peerFi = some fi ∧ q.ctx.respCb = some Cb.assoc

/-- The declared transitions: `pfcp_cp_peer_fsm_states[]` (pfcp_cp_peer.c:322-382). -/
def declared : List (PState × PState) :=
  [(.disabled, .waitAssoc), (.disabled, .waitUseCount),
   (.waitAssoc, .associated), (.waitAssoc, .waitRetry), (.waitAssoc, .waitUseCount),
   (.waitRetry, .waitAssoc), (.waitRetry, .waitUseCount),
   (.associated, .waitAssoc), (.associated, .gracefulRelease), (.associated, .waitUseCount),
   (.gracefulRelease, .waitRetry), (.gracefulRelease, .waitUseCount)]

/-- Those that are ever taken. -/
def taken : List (PState × PState) :=
  [(.disabled, .waitAssoc), (.waitAssoc, .associated), (.waitAssoc, .waitRetry), (.waitRetry, .waitAssoc)]

/-- A peer begins in "disabled", and each state follows the previous one by one of the transitions `ts`. -/
def Follows (ts : List (PState × PState)) : List PState → Prop
  | [] => True
  | [s] => s = .disabled
  | s :: s' :: l => (s', s) ∈ ts ∧ Follows ts (s' :: l)

/-- osmo_pfcp_msg_cause() gives the Cause "Request accepted" (3GPP TS 29.244 8.2.1: value 1). -/
def RequestAccepted (m : PMsg) : Prop := ∃ l, m.cause = some (.leaf (.cause 1) :: l)

/-- The CP peer `fi` has been told that it is associated: its resp_cb() got a message, received as a response
with the sequence number of one of its Association Setup Requests, that has Cause "Request accepted". -/
def Accepted (fi : Nat) (remote : Sockaddr) (log : List Event) : Prop :=
  ∃ id seq k m t, AssocReqOf fi remote id seq log ∧ .respCb id (some k) t ∈ log ∧ .received k m ∈ log ∧
    m.isResponse = true ∧ m.h.seq = seq ∧ RequestAccepted m

/-- What can leave a CP peer waiting for a response forever: an Association Setup Request of its was removed by
osmo_pfcp_endpoint_close(). -/
def Excused (fi : Nat) (log : List Event) : Prop :=
  ∃ id remote seq, AssocReqOf fi remote id seq log ∧ .dropped id ∈ log

/-- assoc_cb() is called exactly when a CP peer that has one becomes associated, immediately then, and with
`true`. -/
structure CbOk (log : List Event) : Prop where
  only : ∀ a fi b l, log = a ++ .peer fi (.assocCb b) :: l →
    b = true ∧ ∃ l', l = .peer fi (.state .associated) :: l' ∧ cbIn fi l' = true
  always : ∀ a fi l, log = a ++ .peer fi (.state .associated) :: l → cbIn fi l = true →
    ∃ a', a = a' ++ [.peer fi (.assocCb true)]

/-- The octets of an Association Setup Request: Node ID, Recovery Time Stamp, and CP Function Features with BUNDL
(bit 5 of the first octet) set. -/
def assocReqOctets (nodeId : NodeId) (rts seq : Nat) : List UInt8 :=
  Spec.msgOctets false { version := 1, type := 5, seq }
    (Spec.ie16 (60, Spec.wire (.nodeId nodeId)) ++ Spec.ie16 (96, Spec.be 4 rts) ++ Spec.ie16 (89, [0x10]))

end Verif
