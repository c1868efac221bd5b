/-
What it means that the application closes the endpoint inside a callback.
-/
import Verif.SpecSafe

namespace Verif

/-- The program calls osmo_pfcp_endpoint_close(), itself or by osmo_pfcp_endpoint_bind(), whatever its calls return. -/
def App.Closes : App → Prop
  | .done => False
  | .close _ => True
  | .bind _ _ => True
  | .tx _ _ _ rest => rest.Closes
  | .txData _ _ rest => rest.Closes
  | .heartbeat _ _ rest => rest.Closes
  | .invalidate _ rest => rest.Closes
  | .setSeq _ rest => rest.Closes
  | .setTimers _ _ _ rest => rest.Closes
  | .setT26 _ rest => rest.Closes
  | .newPeer _ _ rest => rest.Closes
  | .setAssocCb _ _ rest => rest.Closes
  | .associate _ _ rest => rest.Closes

/-- A callback that is called when a response to the request arrives closes the endpoint: set_msg_ctx_cb() if there is
one, the application's resp_cb() if the request has one, rx_msg_cb() if it has none or if that returns 1. -/
def React.ClosesFor (cfg : EpCfg) (req : PMsg) (r : React) : Prop :=
  (cfg.hasSetCtx = true ∧ r.onCtx.Closes) ∨ ((∃ f, req.ctx.respCb = some (.app f)) ∧ r.onResp.Closes) ∨
    ((req.ctx.respCb = none ∨ ((∃ f, req.ctx.respCb = some (.app f)) ∧ r.rc = 1)) ∧ r.onRx.Closes)

/-- It may do everything that `React.Tame` allows, and may also close the endpoint, in set_msg_ctx_cb() and rx_msg_cb(). -/
def React.Loose (own : Nat → Prop) (nodeId : NodeId) (r : React) : Prop :=
  r.onCtx.Tame own nodeId false ∧ r.onRx.Tame own nodeId false

end Verif
