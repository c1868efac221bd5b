/-
Two histories of an endpoint, one with additional datagrams (C121).
-/
import Verif.SpecEndpoint
import Verif.SpecTouch

namespace Verif.Spec
open Verif

/-- What happens at an endpoint; timers are identified by the place of their message in the queue of pending requests, or of responses that are kept. -/
inductive Act where
  | app (a : App)
  | rx (remote : Sockaddr) (datagram : List UInt8) (rs : List React)
  | advance (ms : Nat)
  | reqTimer (i : Nat) (io : Bool) (onFail : App)
  | respTimer (i : Nat)
  | peerTimer (fi : Nat) (io : Bool)

/-- It happens. -/
def Act.step : Act → Ep → Res Ep
  | .app a, ep => Op.step (.app a) ep
  | .rx remote d rs, ep => Op.step (.rx remote d rs) ep
  | .advance ms, ep => Op.step (.advance ms) ep
  | .reqTimer i io cb, ep =>
    match ep.reqs[i]? with
    | some e => Op.step (.reqTimer e.id io cb) ep
    | none => .ok ep
  | .respTimer i, ep =>
    match ep.resps[i]? with
    | some e => Op.step (.respTimer e.id) ep
    | none => .ok ep
  | .peerTimer fi io, ep => Op.step (.peerTimer fi io) ep

/-- One after the other. -/
def runActs : List Act → Ep → Res Ep
  | [], ep => .ok ep
  | a :: l, ep => (a.step ep).bind (runActs l)

/-- A datagram that does not concern the endpoint, in this state: the application does nothing about its messages, and none of them is a response with the sequence
number of a pending request.  (`ep'`: the state after it.) -/
def Noise (ep : Ep) (rs : List React) (ep' : Ep) : Prop :=
  (∀ r ∈ rs, CallsNothing r) ∧
  ∀ l, ep'.log = l ++ ep.log → ∀ k m, Event.received k m ∈ l → m.isResponse = true → ∀ e ∈ ep.reqs, m.h.seq ≠ e.m.h.seq

/-- In state `ep`, the history `noisy` is possible and leads to `ep'`; it is `quiet` with noise in between. -/
inductive WithNoise : Ep → List Act → List Act → Ep → Prop
  | done {ep} : WithNoise ep [] [] ep
  | act {ep ep1 ep' a quiet noisy} : Act.step a ep = .ok ep1 → WithNoise ep1 quiet noisy ep' →
      WithNoise ep (a :: quiet) (a :: noisy) ep'
  | noise {ep ep1 ep' remote d rs quiet noisy} : ep.rxDatagram remote d rs = .ok ep1 → Noise ep rs ep1 →
      WithNoise ep1 quiet noisy ep' → WithNoise ep quiet (.rx remote d rs :: noisy) ep'

/-- Other numbers for messages. -/
def renWhy (f : Nat → Nat) : Why → Why
  | .heartbeatReply k => .heartbeatReply (f k)
  | .cachedReply k => .cachedReply (f k)
  | w => w

/-- The same event, with other numbers for messages. -/
def renEvent (f : Nat → Nat) : Event → Event
  | .passed id n1 t1 m => .passed (f id) n1 t1 m
  | .returned id rc => .returned (f id) rc
  | .send why id remote o ok t => .send (renWhy f why) (f id) remote o ok t
  | .respCb id resp t => .respCb (f id) (resp.map f) t
  | .received k m => .received (f k) m
  | .setCtx k req => .setCtx (f k) (req.map f)
  | .dispatch k req => .dispatch (f k) (req.map f)
  | .freed id => .freed (f id)
  | .dropped id => .dropped (f id)
  | e => e

/-- The event is one of those that a received message `k` brings about which is not taken notice of: it is received, told to the callbacks, and answered if it is a
heartbeat or a repeated request. -/
def OfNoise (k : Nat) : Event → Prop
  | .received i _ => i = k
  | .setCtx i req => i = k ∧ req = none
  | .dispatch i req => i = k ∧ req = none
  | .send (.heartbeatReply i) .. => i = k
  | .send (.cachedReply i) .. => i = k
  | _ => False

/-- The second log is the first, with other numbers for messages, and events in between that are due to messages which are not in the first. -/
inductive Inserted (f : Nat → Nat) : List Event → List Event → Prop
  | nil : Inserted f [] []
  | same {e l l'} : Inserted f l l' → Inserted f (e :: l) (renEvent f e :: l')
  | noise {k e l l'} : OfNoise k e → (∀ i, f i ≠ k) → Inserted f l l' → Inserted f l (e :: l')

/-- What the endpoint sends of its own accord, that is, not because of a message that it receives in this moment: destination, octets, success and time. -/
def ownSends (log : List Event) : List (Sockaddr × List UInt8 × Bool × Nat) :=
  log.filterMap fun e =>
    match e with
    | .send .tx _ r o ok t => some (r, o, ok, t)
    | .send .direct _ r o ok t => some (r, o, ok, t)
    | .send .heartbeatReq _ r o ok t => some (r, o, ok, t)
    | .send .retrans _ r o ok t => some (r, o, ok, t)
    | _ => none

/-- What happens to the CP peers. -/
def peerEvents (log : List Event) : List (Nat × PeerEvent) :=
  log.filterMap fun e =>
    match e with
    | .peer fi e => some (fi, e)
    | _ => none

/-- The calls of resp_cb(), of the messages with these numbers: whether there is a response, and when. -/
def allRespCbs (log : List Event) : List (Nat × Option Nat × Nat) :=
  log.filterMap fun e =>
    match e with
    | .respCb id resp t => some (id, resp, t)
    | _ => none

/-- The same queue, with other numbers for messages. -/
def renQueue (f : Nat → Nat) (q : List QEntry) : List QEntry := q.map fun e => { e with id := f e.id }

/-- The states are the same but for the log and the numbers of messages: queues, timers, sequence numbers, CP peers, use counts, socket, clock and configuration are alike. -/
def SameState (f : Nat → Nat) (q n : Ep) : Prop :=
  n = { q with reqs := renQueue f q.reqs, resps := renQueue f q.resps, busy := q.busy.map f, nextId := n.nextId, log := n.log }

end Verif.Spec
