/-
What moves a CP peer: the events around each change of its state.
-/
import Verif.SpecPeer

namespace Verif.Spec
open Verif

/-- Event `e` after the history `l` (latest first) is as it should be:
* a CP peer changes its state to "wait for Association Setup Response" for its own reasons (it is told to associate, or its timer
  has expired);
* it becomes associated only immediately when resp_cb() is called for a request that it has sent, with a response to it that
  has the Cause "Request accepted";
* it begins to wait for a retry only immediately when resp_cb() is called for a request that it has sent, without a response, or
  with another response;
* it goes to no other state;
* an Association Setup Request of a CP peer is passed to osmo_pfcp_endpoint_tx() only immediately after its change of state. -/
def MoveOk : Event → List Event → Prop
  | .peer fi (.state s), l =>
    s = .waitAssoc ∨
    (∃ id k t l' remote m, s = .associated ∧ l = .respCb id (some k) t :: l' ∧ AssocReqOf fi remote id m.h.seq l' ∧
      .received k m ∈ l' ∧ m.isResponse = true ∧ RequestAccepted m) ∨
    (∃ id r t l' remote seq, s = .waitRetry ∧ l = .respCb id r t :: l' ∧ AssocReqOf fi remote id seq l' ∧
      ∀ k, r = some k → ∃ m, .received k m ∈ l' ∧ m.isResponse = true ∧ m.h.seq = seq ∧ ¬ RequestAccepted m)
  | .passed _ _ _ q, l =>
    q.ctx.respCb = some Cb.assoc → q.h.type = 5 ∧ ∃ fi l', q.ctx.peerFi = some fi ∧ l = .peer fi (.state .waitAssoc) :: l'
  | _, _ => True

/-- All events of a history are. -/
def AllMoves : List Event → Prop
  | [] => True
  | e :: l => MoveOk e l ∧ AllMoves l

/-- And it does not end while a CP peer is just about to send its request. -/
structure Moves (log : List Event) : Prop where
  all : AllMoves log
  settled : ∀ fi l, log ≠ .peer fi (.state .waitAssoc) :: l

/-- How often the CP peer `fi` began to associate. -/
def starts (fi : Nat) : List Event → Nat
  | [] => 0
  | .peer f (.state .waitAssoc) :: l => (if f = fi then 1 else 0) + starts fi l
  | _ :: l => starts fi l

/-- The application does not call osmo_pfcp_cp_peer_associate() for the CP peer `fi`, also not in its callbacks. -/
def _root_.Verif.App.spares (fi : Nat) : App → Bool
  | .done => true
  | .tx _ _ onFail rest => onFail.spares fi && rest.spares fi
  | .txData _ _ rest => rest.spares fi
  | .heartbeat _ _ rest => rest.spares fi
  | .invalidate _ rest => rest.spares fi
  | .setSeq _ rest => rest.spares fi
  | .setTimers _ _ _ rest => rest.spares fi
  | .close rest => rest.spares fi
  | .bind _ rest => rest.spares fi
  | .setT26 _ rest => rest.spares fi
  | .newPeer _ _ rest => rest.spares fi
  | .setAssocCb _ _ rest => rest.spares fi
  | .associate f _ rest => decide (f ≠ fi) && rest.spares fi

/-- Neither does it when it is called upon a received message. -/
def _root_.Verif.React.spares (fi : Nat) (r : React) : Bool := App.spares fi r.onCtx && App.spares fi r.onResp && App.spares fi r.onRx

/-- Neither in this event of a history, which also is not the expiry of the CP peer's own timer. -/
def _root_.Verif.Op.spares (fi : Nat) : Op → Bool
  | .app a => App.spares fi a
  | .rx _ _ rs => rs.all (React.spares fi)
  | .advance _ => true
  | .reqTimer _ _ onFail => App.spares fi onFail
  | .respTimer _ => true
  | .peerTimer f _ => decide (f ≠ fi)

end Verif.Spec
