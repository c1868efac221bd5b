/-
Model of osmo_pfcp_endpoint_free() (src/libosmo-pfcp/pfcp_endpoint.c:504-511): the whole life of an endpoint, from
osmo_pfcp_endpoint_create() to what happens after it was deallocated.

Simplification: osmo_pfcp_endpoint_free() is not called inside other callbacks than rx_msg_cb().
-/
import Verif.Endpoint

namespace Verif

/-- The variable in which the application keeps its `struct osmo_pfcp_endpoint *`.  `null`: osmo_pfcp_endpoint_free()
has set it to NULL.  Then the endpoint does not exist anymore; `ep` stands for what does not belong to it: the clock,
the timer definitions, the CP peers (which are allocated in a context of the application), use counts and the log. -/
structure Handle where
  ep : Ep
  null : Bool := false

/-- `osmo_pfcp_endpoint_free()` (pfcp_endpoint.c:504-511).  talloc_free() has nothing left to free but the struct:
queue entries are children of the endpoint (pfcp_endpoint.c:300), which osmo_pfcp_endpoint_close() has removed. -/
def Handle.free (h : Handle) : Res Handle :=
  if h.null then .ok h
  else h.ep.close.bind fun ep => .ok { ep, null := true }

/-- API calls when there is no endpoint: a function that gets an endpoint accesses it, and so does that of a CP peer
(pfcp_cp_peer.c:183-204, `cp_peer->ep`); osmo_pfcp_cp_peer_alloc() (pfcp_cp_peer.c:97-121) only stores the pointer,
osmo_pfcp_cp_peer_set_associated_cb() (pfcp_cp_peer.c:142-146) and changes of timer definitions have nothing to do with
it.  osmo_pfcp_cp_peer_associate() (pfcp_cp_peer.c:123-140) does not send when it is associated or waits. -/
def App.runNull : App → Ep → Res Ep
  | .done, ep => .ok ep
  | .setTimers n1 t1 keepResp rest, ep => rest.runNull ({ ep with n1, t1, keepResp }.note (.config n1 t1 keepResp))
  | .setT26 t26 rest, ep => rest.runNull ({ ep with t26 }.note (.configT26 t26))
  | .newPeer fi remote rest, ep => rest.runNull (ep.newPeer fi remote)
  | .setAssocCb fi cb rest, ep => rest.runNull (ep.setAssocCb fi cb)
  | .associate fi _ rest, ep =>
    match ep.peer? fi with
    | none => rest.runNull ep
    | some p => if p.state = .disabled ∨ p.state = .waitRetry then .ub else rest.runNull ep
  | .tx .., _ => .ub
  | .txData .., _ => .ub
  | .heartbeat .., _ => .ub
  | .invalidate .., _ => .ub
  | .setSeq .., _ => .ub
  | .close .., _ => .ub
  | .bind .., _ => .ub

/-- `pfcp_cp_peer_fsm_timer_cb()` (pfcp_cp_peer.c:167-178) when there is no endpoint: in WAIT_RETRY, the onenter of
WAIT_ASSOC_SETUP_RESP (pfcp_cp_peer.c:183-204) accesses it. -/
def Ep.peerTimerNull (ep : Ep) (fi : Nat) : Res Ep :=
  match ep.peer? fi with
  | none => .ok ep
  | some p =>
    if ¬ p.timer.any (fun d => d ≤ ep.now) then .ok ep
    else if p.state = .waitRetry then .ub
    else .ok { ep with peers := ep.peers.filter fun p => p.fi ≠ fi }

/-- What happens when there is no endpoint: the socket is not registered anymore (pfcp_endpoint.c:497-501), nor are
the timers of queue entries, which osmo_pfcp_queue_destructor() has deleted (pfcp_endpoint.c:95-101). -/
def Op.stepNull : Op → Ep → Res Ep
  | .app a, ep => a.runNull ep
  | .rx .., ep => .ok ep
  | .advance ms, ep => .ok { ep with now := ep.now + ms }
  | .reqTimer .., ep => .ok ep
  | .respTimer _, ep => .ok ep
  | .peerTimer fi _, ep => ep.peerTimerNull fi

/-! ### osmo_pfcp_endpoint_free() inside rx_msg_cb() -/

/-- One program after another. -/
def App.andThen : App → App → App
  | .done, b => b
  | .tx m io onFail rest, b => .tx m io onFail (rest.andThen b)
  | .txData m io rest, b => .txData m io (rest.andThen b)
  | .heartbeat remote io rest, b => .heartbeat remote io (rest.andThen b)
  | .invalidate fi rest, b => .invalidate fi (rest.andThen b)
  | .setSeq n rest, b => .setSeq n (rest.andThen b)
  | .setTimers n1 t1 keepResp rest, b => .setTimers n1 t1 keepResp (rest.andThen b)
  | .close rest, b => .close (rest.andThen b)
  | .bind ok rest, b => .bind ok (rest.andThen b)
  | .setT26 t26 rest, b => .setT26 t26 (rest.andThen b)
  | .newPeer fi remote rest, b => .newPeer fi remote (rest.andThen b)
  | .setAssocCb fi cb rest, b => .setAssocCb fi cb (rest.andThen b)
  | .associate fi io rest, b => .associate fi io (rest.andThen b)

/-- What happens while one received message is handled (as `React`).  `free`: rx_msg_cb(), if it is called, calls
osmo_pfcp_endpoint_free() after `onRx`, and then does `after`. -/
structure FReact where
  r : React := {}
  free : Bool := false
  after : App := .done

/-- What `osmo_pfcp_endpoint_handle_rx()` does after Heartbeats (pfcp_endpoint.c:370-420).  If the message is a response
to a pending request, the osmo_pfcp_endpoint_close() in osmo_pfcp_endpoint_free() deallocates that, before it is removed
in line 419; if it is not, nothing of the endpoint is accessed after rx_msg_cb(). -/
def Ep.handleMsgF (ep : Ep) (k : Nat) (m : PMsg) (f : FReact) : Res Handle :=
  if ¬ f.free then (ep.handleMsg k m f.r).bind fun ep => .ok { ep }
  else
    match queueFind (if m.isResponse then ep.reqs else ep.resps) m with
    | some _ => (ep.handleMsg k m { f.r with onRx := f.r.onRx.andThen (.close .done) }).bind fun ep => .ok { ep }
    | none =>
      (ep.setCtx k none f.r).bind fun ep =>
      (ep.dispatch k none f.r).bind fun ep =>
      (Handle.free { ep }).bind fun h =>
      (f.after.runNull h.ep).bind fun ep => .ok { h with ep }

/-- `osmo_pfcp_endpoint_handle_rx()` (pfcp_endpoint.c:356-420), and the osmo_pfcp_msg_free() that follows it. -/
def Ep.handleRxF (ep : Ep) (m : PMsg) (f : FReact) : Res Handle :=
  let k := ep.nextId
  ({ ep with nextId := k + 1 }.note (.received k m)).heartbeatReply k m f.r.io |>.bind fun ep =>
  (ep.handleMsgF k m f).bind fun h => (h.ep.releaseUses (h.ep.rxUses f.r)).bind fun ep => .ok { h with ep }

/-- The messages of a bundle (pfcp_endpoint.c:445-461): the endpoint is accessed for each one that could be decoded
(pfcp_endpoint.c:373), also if it does not exist anymore. -/
def Handle.handleAllF (h : Handle) (remote : Sockaddr) : List Rx → List FReact → Res Handle
  | [], _ => .ok h
  | ⟨_, none⟩ :: l, fs => h.handleAllF remote l fs
  | ⟨d, some ies⟩ :: l, fs =>
    if h.null then .ub
    else (h.ep.handleRxF (Rx.msg remote d ies) (fs.headD {})).bind fun h => h.handleAllF remote l fs.tail

/-- `osmo_pfcp_fd_cb()` (pfcp_endpoint.c:423-465); as `Ep.rxDatagram`. -/
def Handle.rxDatagramF (h : Handle) (remote : Sockaddr) (datagram : List UInt8) (fs : List FReact) : Res Handle :=
  let o := datagram.take allocSize
  if h.null ∨ ¬ h.ep.sock ∨ o = [] then .ok h
  else if ¬ h.ep.cfg.hasRx then .abort
  else
    (rxBundle (o.length + 1) (.received o) (List.replicate (allocSize - o.length) 0)).bind fun l =>
    h.handleAllF remote l fs

/-- What happens in the life of an endpoint.  `rx`: a datagram arrives, and rx_msg_cb() may free the endpoint. -/
inductive LifeOp where
  | op (o : Op)
  | free
  | rx (remote : Sockaddr) (datagram : List UInt8) (fs : List FReact)

def LifeOp.step : LifeOp → Handle → Res Handle
  | .free, h => h.free
  | .op o, h => (if h.null then o.stepNull h.ep else o.step h.ep).bind fun ep => .ok { h with ep }
  | .rx remote datagram fs, h => h.rxDatagramF remote datagram fs

/-- A life. -/
def lifeExec : List LifeOp → Handle → Res Handle
  | [], h => .ok h
  | o :: l, h => (o.step h).bind (lifeExec l)

end Verif
