/-
What an application may still do when its endpoint is deallocated, and what may still be seen.
-/
import Verif.Lifetime
import Verif.SpecEndpoint

namespace Verif.Spec
open Verif

/-- The application does not use the endpoint: it configures timers, allocates CP peers and sets their callbacks. -/
def LeavesAlone : App → Prop
  | .done => True
  | .setTimers _ _ _ rest => LeavesAlone rest
  | .setT26 _ rest => LeavesAlone rest
  | .newPeer _ _ rest => LeavesAlone rest
  | .setAssocCb _ _ rest => LeavesAlone rest
  | _ => False

/-- ... whatever else happens: datagrams arrive, time passes, timers expire, osmo_pfcp_endpoint_free() is called again. -/
def Unused : LifeOp → Prop
  | .op (.app a) => LeavesAlone a
  | _ => True

/-- There is no endpoint, and the program uses it: it calls a function of the endpoint, or it has a CP peer send an
Association Setup Request.  `peers`: the states of the CP peers that there are. -/
def UsesIt (peers : Nat → Option PState) : App → Prop
  | .done => False
  | .setTimers _ _ _ rest => UsesIt peers rest
  | .setT26 _ rest => UsesIt peers rest
  | .newPeer fi _ rest => UsesIt (fun x => if x = fi ∧ peers x = none then some .disabled else peers x) rest
  | .setAssocCb _ _ rest => UsesIt peers rest
  | .associate fi _ rest => peers fi = some .disabled ∨ peers fi = some .waitRetry ∨ UsesIt peers rest
  | _ => True

/-- Nothing that the endpoint does, but what the application says: definitions of timers, and setting of callbacks. -/
def ByTheApplication : Event → Prop
  | .config .. => True
  | .configT26 _ => True
  | .peer _ (.cbSet _) => True
  | _ => False

/-- The endpoint tells the application that a message is removed and freed; nothing else. -/
def Removal : Event → Prop
  | .dropped _ => True
  | .freed _ => True
  | _ => False

end Verif.Spec
