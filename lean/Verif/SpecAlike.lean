/-
What an endpoint can tell apart: messages, histories and states that differ only in what it does not look at.
-/
import Verif.SpecPeer

namespace Verif.Spec
open Verif

/-- Two received messages that differ in nothing but the address they come from, and in what they say other than: request or
response, sequence number, whether it is a Heartbeat Request, and whether there is a Cause "Request accepted". -/
structure Alike (m m' : PMsg) : Prop where
  kind : m'.isResponse = m.isResponse
  seq : m'.h.seq = m.h.seq
  heartbeat : m'.h.type = 1 ↔ m.h.type = 1
  accepted : RequestAccepted m' ↔ RequestAccepted m

/-- Events that differ only in the content of a received message, or in the address that a Heartbeat Response is sent to. -/
inductive Event.Alike : Event → Event → Prop
  | same (e) : Event.Alike e e
  | received {k m m'} : Spec.Alike m m' → Event.Alike (.received k m) (.received k m')
  | heartbeatReply {k id r r' o ok t} : Event.Alike (.send (.heartbeatReply k) id r o ok t) (.send (.heartbeatReply k) id r' o ok t)

/-- Endpoints with the same configuration, queues, timers, CP peers, counters and use counts, and with the same history of
events, but for differences as above. -/
structure Ep.Alike (ep ep' : Ep) : Prop where
  state : ep' = { ep with log := ep'.log }
  log : All2 Event.Alike ep.log ep'.log

/-- Both calls return, with results that are related; or neither returns. -/
def Res.Alike {α : Type} (R : α → α → Prop) : Res α → Res α → Prop
  | .ok a, .ok b => R a b
  | .err e, .err e' => e = e'
  | .abort, .abort => True
  | .ub, .ub => True
  | .diverge, .diverge => True
  | _, _ => False

/-- The same, but that datagrams may come from another address. -/
inductive Op.FromElsewhere : Op → Op → Prop
  | same (op) : Op.FromElsewhere op op
  | rx (r r' d rs) : Op.FromElsewhere (.rx r d rs) (.rx r' d rs)

end Verif.Spec
