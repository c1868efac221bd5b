/-
Model of src/libosmo-pfcp/pfcp_cp_peer.c: the state machine of a CP peer, by itself.  What it does with the
endpoint (sending Association Setup Requests, handling the responses) is in Endpoint.lean.
-/
import Verif.Msg

namespace Verif

/-- `enum pfcp_cp_peer_fsm_state` (pfcp_cp_peer.c:36-43) -/
inductive PState where
  | disabled
  | waitAssoc       -- PFCP_CP_PEER_ST_WAIT_ASSOC_SETUP_RESP
  | waitRetry
  | associated
  | gracefulRelease
  | waitUseCount
  deriving DecidableEq, Repr

/-- The `.out_state_mask`s of `pfcp_cp_peer_fsm_states[]` (pfcp_cp_peer.c:322-382): to which states
osmo_fsm_inst_state_chg() (libosmocore, trusted) changes from which. -/
def PState.permits : PState → PState → Bool
  | .disabled, .waitAssoc => true
  | .disabled, .waitUseCount => true
  | .waitAssoc, .associated => true
  | .waitAssoc, .waitRetry => true
  | .waitAssoc, .waitUseCount => true
  | .waitRetry, .waitAssoc => true
  | .waitRetry, .waitUseCount => true
  | .associated, .waitAssoc => true
  | .associated, .gracefulRelease => true
  | .associated, .waitUseCount => true
  | .gracefulRelease, .waitRetry => true
  | .gracefulRelease, .waitUseCount => true
  | _, _ => false

/-- `struct osmo_pfcp_cp_peer` (pfcp_cp_peer_private.h:36-52) with its FSM instance, whose identity is `fi`.
`hasCb`: there is an assoc_cb.  `timer`: when the FSM timer expires, if it is running.  Its use count is in
the endpoint (`Ep.use`).  `next_seid_state` is not part of this (C31 is about it), nor is `priv`. -/
structure Peer where
  fi : Nat
  remote : Sockaddr
  hasCb : Bool := false
  state : PState := .disabled
  timer : Option Nat := none

/-- What can be observed of a CP peer: the state changes (osmo_fsm logs them), calls of assoc_cb(), and of
osmo_pfcp_cp_peer_set_associated_cb(), with a function or NULL. -/
inductive PeerEvent where
  | state (s : PState)
  | assocCb (associated : Bool)
  | cbSet (cb : Bool)
  deriving DecidableEq, Repr

/-- "PFCPrx", "PFCPtx" (pfcp_cp_peer.c:415) -/
def tokenRx : Nat := 0
def tokenTx : Nat := 1

/-- Replace a peer. -/
def setPeer (ps : List Peer) (p : Peer) : List Peer := ps.map fun x => if x.fi = p.fi then p else x

/-- `osmo_tdef_fsm_inst_state_chg()` (libosmocore, trusted) with `pfcp_cp_peer_fsm_timeouts`
(pfcp_cp_peer.c:60-72) for a state change that is permitted: an earlier timer is stopped, in WAIT_RETRY a
new one is started unless T26 is 0.  The onenter and onleave functions are called by the callers of this, as
far as they do anything: that of GRACEFUL_RELEASE only logs, that of WAIT_USE_COUNT and the timer of
GRACEFUL_RELEASE are not modelled, as nothing changes to these states; nothing leaves ASSOCIATED, so that
its onleave (pfcp_cp_peer.c:274-281) is not called. -/
def Peer.enter (p : Peer) (new : PState) (now t26 : Nat) : Peer :=
  { p with
    state := new
    timer := if new = .waitRetry ∧ t26 ≠ 0 then some (now + t26) else none }

/-- `osmo_pfcp_cp_peer_is_associated()` (pfcp_cp_peer.c:402-405) -/
def Peer.isAssociated (p : Peer) : Bool := p.state = .associated

/-- `osmo_pfcp_cp_peer_set_msg_ctx()` (pfcp_cp_peer.c:407-417): the context.  The use count, whose identity is
that of the FSM instance here, is taken by `Ep.takeUses`. -/
def Peer.setCtx (p : Peer) (token : Nat) (c : Ctx) : Ctx :=
  match c.peerFi with
  | some _ => c
  | none => { c with peerFi := some p.fi, peerUse := some (p.fi, token) }

/-- The Association Setup Request (pfcp_cp_peer.c:188-197, 419-428): bit 4 of the CP Function Features is
BUNDL. -/
def assocReq (p : Peer) (rts : Nat) : PMsg :=
  let ofs := membOfsOf 5
  { msgAlloc p.remote with
    isResponse := isResponseType 5
    h := { (msgAlloc p.remote).h with type := 5 }
    causeAt := ofs.1
    nodeIdAt := ofs.2
    ies := [[.leaf (.nodeId (.v4 .unspec))], [.leaf (.u32 rts)], [], [.leaf (.cpFeatures [16])]]
    ctx := p.setCtx tokenTx { respCb := some .assoc } }

/-- The evaluation of the response (pfcp_cp_peer.c:219-228): there is a Cause, and it is
OSMO_PFCP_CAUSE_REQUEST_ACCEPTED. -/
def PMsg.accepted (m : PMsg) : Bool :=
  match m.cause with
  | some (.leaf (.cause c) :: _) => c = 1
  | _ => false

end Verif
