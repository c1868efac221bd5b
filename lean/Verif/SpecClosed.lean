/-
What a closed endpoint must not do.
-/
import Verif.SpecEndpoint

namespace Verif.Spec
open Verif

/-- The event is traffic: octets are handed to the socket, a message is received or handled, a request is answered,
or a message was sent successfully. -/
def Traffic : Event → Prop
  | .send .. => True
  | .received .. => True
  | .setCtx .. => True
  | .dispatch .. => True
  | .respCb _ (some _) _ => True
  | .returned _ none => True
  | _ => False

/-- The application does not bind the endpoint, not even in a callback for a message that cannot be sent. -/
def NeverBinds : App → Prop
  | .done => True
  | .tx _ _ onFail rest => NeverBinds onFail ∧ NeverBinds rest
  | .txData _ _ rest => NeverBinds rest
  | .heartbeat _ _ rest => NeverBinds rest
  | .invalidate _ rest => NeverBinds rest
  | .setSeq _ rest => NeverBinds rest
  | .setTimers _ _ _ rest => NeverBinds rest
  | .close rest => NeverBinds rest
  | .bind _ _ => False
  | .setT26 _ rest => NeverBinds rest
  | .newPeer _ _ rest => NeverBinds rest
  | .setAssocCb _ _ rest => NeverBinds rest
  | .associate _ _ rest => NeverBinds rest

/-- ... whatever else happens: datagrams arrive, timers expire. -/
def NoBind : Op → Prop
  | .app a => NeverBinds a
  | _ => True

end Verif.Spec
