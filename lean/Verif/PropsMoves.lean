/-
C109: what moves a CP peer, and what does not; C63: which CP peers are stuck, and that they remain so.
-/
import Verif.EndpointStarts
import Verif.EndpointSettled
import Verif.PropsAssoc

namespace Verif.Props
open Verif Spec

theorem _root_.Verif.Spec.AllMoves.at' : ∀ {a : List Event} {e l}, AllMoves (a ++ e :: l) → MoveOk e l
  | [], _, _, h => h.1
  | _ :: a, _, _, h => Verif.Spec.AllMoves.at' (a := a) h.2

theorem peerStates_without {fi} : ∀ {l : List Event}, (∀ s, Event.peer fi (.state s) ∉ l) → ∀ log, peerStates fi (l ++ log) = peerStates fi log
  | [], _, _ => rfl
  | e :: l, h, log => by
    have ih := peerStates_without (l := l) (fun s hs => h s (.tail _ hs)) log
    rw [List.cons_append, peerStates_cons]
    split
    · rename_i f s
      rw [if_neg (fun hf => h s (by rw [hf]; exact .head _))]
      exact ih
    · exact ih

/-- The oldest event about the state of a CP peer. -/
theorem oldest_state {fi} : ∀ {l : List Event}, (∃ s, Event.peer fi (.state s) ∈ l) →
    ∃ a s b, l = a ++ .peer fi (.state s) :: b ∧ ∀ s, Event.peer fi (.state s) ∉ b
  | [], ⟨_, h⟩ => by cases h
  | e :: l, ⟨s, h⟩ => by
    by_cases hx : ∃ s, Event.peer fi (.state s) ∈ l
    · obtain ⟨a, s, b, rfl, hb⟩ := oldest_state hx
      exact ⟨e :: a, s, b, rfl, hb⟩
    · rcases List.mem_cons.1 h with rfl | h
      · exact ⟨[], s, l, rfl, fun s hs => hx ⟨s, hs⟩⟩
      · exact absurd ⟨s, h⟩ hx

theorem same_state {ep ep' : Ep} (h : Reached ep) (h' : Reached ep') {fi l} (hl : ep'.log = l ++ ep.log)
    (key : ∀ s, Event.peer fi (.state s) ∉ l) {p p'} (hp : ep.peer? fi = some p) (hp' : ep'.peer? fi = some p') : p'.state = p.state := by
  have hst := C60_state h hp
  have this := C60_state h' hp'
  rw [hl, peerStates_without key, hst] at this
  exact (Option.some.inj this).symm

theorem starts_append (fi) : ∀ l log : List Event, starts fi (l ++ log) = starts fi l + starts fi log
  | [], log => (Nat.zero_add _).symm
  | e :: l, log => by
    have ih := starts_append fi l log
    cases e <;> try exact ih
    rename_i f e
    cases e <;> try exact ih
    rename_i s
    cases s <;> try exact ih
    simp only [List.cons_append, starts]
    omega

theorem starts_lt {fi} {l : List Event} (h : Event.peer fi (.state .waitAssoc) ∈ l) (log) : starts fi log < starts fi (l ++ log) := by
  obtain ⟨a, b, rfl⟩ := List.append_of_mem h
  rw [starts_append, starts_append]
  simp only [starts, if_pos]
  omega

theorem _root_.Verif.Follows.suffix' {ts} : ∀ {x l : List PState}, Follows ts (x ++ l) → Follows ts l
  | [], _, h => h
  | [_], [], _ => trivial
  | [_], _ :: _, h => h.2
  | _ :: y :: x, l, h => Verif.Follows.suffix' (x := y :: x) (l := l) h.2

/-! ### C109: what moves a CP peer -/

/-- C109: a CP peer becomes associated only at the moment when resp_cb() is called for an Association Setup Request that this CP peer
has sent, with a received response that has the sequence number of the request and the Cause "Request accepted". -/
theorem C109_associated {ep : Ep} (h : Reached ep) {fi a l} (hl : ep.log = a ++ .peer fi (.state .associated) :: l) :
    ∃ id k t l' remote m, l = .respCb id (some k) t :: l' ∧ AssocReqOf fi remote id m.h.seq l' ∧
      .received k m ∈ l' ∧ m.isResponse = true ∧ RequestAccepted m := by
  have := h.moves.all
  rw [hl] at this
  rcases this.at' with h | ⟨id, k, t, l', remote, m, _, h1, h2⟩ | ⟨_, _, _, _, _, _, h, _⟩
  · cases h
  · exact ⟨id, k, t, l', remote, m, h1, h2⟩
  · cases h

/-- C109: a CP peer begins to wait for its next attempt only at the moment when resp_cb() is called for an Association Setup Request
that this CP peer has sent: without a response, or with a received response that has the sequence number of the request, and not the
Cause "Request accepted". -/
theorem C109_retry {ep : Ep} (h : Reached ep) {fi a l} (hl : ep.log = a ++ .peer fi (.state .waitRetry) :: l) :
    ∃ id r t l' remote seq, l = .respCb id r t :: l' ∧ AssocReqOf fi remote id seq l' ∧
      ∀ k, r = some k → ∃ m, .received k m ∈ l' ∧ m.isResponse = true ∧ m.h.seq = seq ∧ ¬ RequestAccepted m := by
  have := h.moves.all
  rw [hl] at this
  rcases this.at' with h | ⟨_, _, _, _, _, _, h, _⟩ | ⟨id, r, t, l', remote, seq, _, h1, h2⟩
  · cases h
  · cases h
  · exact ⟨id, r, t, l', remote, seq, h1, h2⟩

/-- C109: an Association Setup Request of a CP peer is passed to osmo_pfcp_endpoint_tx() only at the moment when this CP peer begins to
associate. -/
theorem C109_request {ep : Ep} (h : Reached ep) {id n1 t1 q a l} (hl : ep.log = a ++ .passed id n1 t1 q :: l)
    (hq : q.ctx.respCb = some Cb.assoc) :
    q.h.type = 5 ∧ ∃ fi l', q.ctx.peerFi = some fi ∧ l = .peer fi (.state .waitAssoc) :: l' := by
  have := h.moves.all
  rw [hl] at this
  exact this.at' hq

/-- C109: nothing else changes the state of a CP peer: if it does not begin to associate, and resp_cb() is not called for a request
of its, then its state remains the same, whatever else happens. -/
theorem C109_isolated {ep ep' : Ep} (h : Reached ep) (hlt : Later ep ep') {fi l} (hl : ep'.log = l ++ ep.log)
    (hw : Event.peer fi (.state .waitAssoc) ∉ l)
    (hr : ∀ id r t, Event.respCb id r t ∈ l → ∀ remote seq, ¬ AssocReqOf fi remote id seq ep'.log) :
    (∀ s, Event.peer fi (.state s) ∉ l) ∧
    ∀ p p', ep.peer? fi = some p → ep'.peer? fi = some p' → p'.state = p.state := by
  have h' := hlt.reached h
  have key : ∀ s, Event.peer fi (.state s) ∉ l := by
    intro s hs
    obtain ⟨a, b, rfl⟩ := List.append_of_mem hs
    have hm := h'.moves.all
    rw [hl, List.append_assoc] at hm
    have sub : ∀ {id r t l' remote seq}, b ++ ep.log = .respCb id r t :: l' → AssocReqOf fi remote id seq l' → False := by
      intro id r t l' remote seq hb ha
      cases b with
      | nil => exact h.settled.head _ _ _ _ hb
      | cons e b =>
        obtain ⟨rfl, rfl⟩ := List.cons.inj hb
        refine hr id r t (by simp) remote seq ?_
        obtain ⟨n1, t1, q, hq, hx⟩ := ha
        refine ⟨n1, t1, q, ?_, hx⟩
        have hq : Event.passed id n1 t1 q ∈ b ++ ep.log := hq
        rw [hl]
        simp only [List.append_assoc, List.cons_append, List.mem_append, List.mem_cons] at hq ⊢
        exact .inr (.inr (.inr hq))
    rcases hm.at' with rfl | ⟨_, _, _, _, _, _, _, h1, h2, _⟩ | ⟨_, _, _, _, _, _, _, h1, h2, _⟩
    · exact hw hs
    · exact sub h1 h2
    · exact sub h1 h2
  exact ⟨key, fun p p' hp hp' => same_state h h' hl key hp hp'⟩

/-- C109: by what happens elsewhere, a CP peer does not begin to associate, and no request of its is sent.  That is: by any event but
the expiry of its own timer, as long as the application does not call osmo_pfcp_cp_peer_associate() for it, in the event or in callbacks. -/
theorem C109_elsewhere {ep ep' : Ep} (h : Reached ep) {op : Op} {fi} (ho : op.spares fi = true) (hx : op.step ep = .ok ep') :
    ∃ l, ep'.log = l ++ ep.log ∧ Event.peer fi (.state .waitAssoc) ∉ l ∧ ∀ id remote seq, ¬ AssocReqOf fi remote id seq l := by
  have hlt : Later ep ep' := .op op .refl hx
  have h' := hlt.reached h
  obtain ⟨l, hl⟩ := hlt.log h
  have hb := (step_begun h.both ho ⟨rfl⟩ hx).eq
  rw [hl] at hb
  have hw : Event.peer fi (.state .waitAssoc) ∉ l := fun hw => by
    have := starts_lt hw ep.log
    omega
  refine ⟨l, hl, hw, ?_⟩
  rintro id remote seq ⟨n1, t1, q, hq, -, -, -, hf, hc⟩
  obtain ⟨a, b, rfl⟩ := List.append_of_mem hq
  obtain ⟨-, fi', l', hf', hb⟩ := C109_request h' (hl.trans (List.append_assoc ..)) hc
  rw [hf] at hf'
  cases hf'
  cases b with
  | nil => exact h.moves.settled _ _ hb
  | cons e b =>
    obtain ⟨rfl, -⟩ := List.cons.inj hb
    exact hw (by simp)

/-- C109: so as long as it does not wait for a response, a CP peer is not affected by anything that happens elsewhere. -/
theorem C109_untouched {ep ep' : Ep} (h : Reached ep) {op : Op} {fi} (ho : op.spares fi = true) (hx : op.step ep = .ok ep')
    {p p'} (hp : ep.peer? fi = some p) (hp' : ep'.peer? fi = some p') (hs : p.state ≠ .waitAssoc) : p'.state = p.state := by
  have h' := (Later.op op .refl hx).reached h
  obtain ⟨l, hl, hw, -⟩ := C109_elsewhere h ho hx
  refine same_state h h' hl ?_ hp hp'
  intro s hm
  obtain ⟨a, s, b, rfl, hb⟩ := oldest_state ⟨s, hm⟩
  have hst := C60_state h hp
  have hf := C60_taken h' fi
  rw [hl, List.append_assoc] at hf
  obtain ⟨x, hx⟩ := peerStates_append fi a (.peer fi (.state s) :: b ++ ep.log)
  rw [hx] at hf
  have hf := hf.suffix'
  rw [List.cons_append, peerStates_cons] at hf
  simp only [if_pos] at hf
  rw [peerStates_without hb] at hf
  cases hps : peerStates fi ep.log with
  | nil => rw [hps] at hst; cases hst
  | cons y z =>
    rw [hps] at hf hst
    cases hst
    have := hf.1
    simp only [taken, List.mem_cons, Prod.mk.injEq, List.not_mem_nil, or_false] at this
    rcases this with ⟨_, rfl⟩ | ⟨h, _⟩ | ⟨h, _⟩ | ⟨_, rfl⟩
    · exact hw (by simp)
    · exact hs h
    · exact hs h
    · exact hw (by simp)

/-- Example: two CP peers, 7 and 8.  While 7 associates, is accepted, and assoc_cb() is called, nothing happens to 8. -/
def exTwo : List Op := [.app (.bind true (.newPeer 7 exUpf (.newPeer 8 exOther (.setAssocCb 7 true .done))))]
/-- The states of both. -/
def statesOf (ops : List Op) : Option (List PState × List PState) :=
  match exec ops exEp with
  | .ok ep => some (peerStates 7 ep.log, peerStates 8 ep.log)
  | _ => none

set_option maxRecDepth 100000 in
example : statesOf (exTwo ++ [.app (.associate 7 true .done), .rx exUpf exAccept [], .app (.associate 8 true .done)]) =
    some ([.associated, .waitAssoc, .disabled], [.waitAssoc, .disabled]) := by rfl

/-- But a response with the sequence number of the request of 8, from the address of 7, associates 8 and not 7. -/
example : statesOf (exTwo ++ [.app (.associate 8 true .done), .app (.associate 7 true .done), .rx exUpf exAccept []]) =
    some ([.waitAssoc, .disabled], [.associated, .waitAssoc, .disabled]) := by
  set_option maxRecDepth 100000 in rfl

/-- The hypotheses of the theorems about events elsewhere. -/
example : (Op.rx exUpf exAccept [{ onRx := .associate 7 true .done }]).spares 8 = true ∧
    (Op.rx exUpf exAccept [{ onRx := .associate 8 true .done }]).spares 8 = false ∧
    (Op.peerTimer 7 true).spares 8 = true ∧ (Op.peerTimer 8 true).spares 8 = false := ⟨rfl, rfl, rfl, rfl⟩

/-- The events of the example, the latest first: those between which the state changes. -/
def shapes (ops : List Op) : Option (List String) :=
  match exec ops exEp with
  | .ok ep => some (ep.log.map fun e => match e with
    | .peer 7 (.state .associated) => "associated"
    | .peer 7 (.state .waitAssoc) => "waiting"
    | .peer 7 (.state .waitRetry) => "retry"
    | .respCb 0 (some _) _ => "response"
    | .respCb 0 none _ => "no response"
    | .passed 0 .. => "passed"
    | _ => "")
  | _ => none

set_option maxRecDepth 100000 in
example : shapes (exAssociate ++ [.rx exUpf exAccept []]) =
    some ["", "", "associated", "response", "", "", "", "", "passed", "waiting", "", ""] := by decide +kernel
example : shapes (exAssociate ++ [.rx exUpf exReject []]) =
    some ["", "retry", "response", "", "", "", "", "passed", "waiting", "", ""] := by decide +kernel
/-- sendto() fails. -/
example : shapes [.app (.bind true (.newPeer 7 exUpf (.associate 7 false .done)))] =
    some ["", "", "retry", "no response", "", "passed", "waiting", ""] := by decide +kernel

/-! ### C63: who is stuck -/

theorem assocReq_unique {ep : Ep} (h : Reached ep) {id n1 t1 n1' t1' q q'} (hp : Event.passed id n1 t1 q ∈ ep.log)
    (hp' : Event.passed id n1' t1' q' ∈ ep.log) : q = q' := by
  cases h.both.use.one _ _ _ _ _ _ _ hp hp'
  rfl

/-- resp_cb() is not called for a request that was not pending before. -/
theorem no_call {ep ep' : Ep} (h : Reached ep) (hlt : Later ep ep') {l} (hl : ep'.log = l ++ ep.log) {id n1 t1 q}
    (hp : Event.passed id n1 t1 q ∈ ep.log) (hn : ¬ ep.pending id) {r t} (hr : Event.respCb id r t ∈ l) : False := by
  have h' := hlt.reached h
  have hp' : Event.passed id n1 t1 q ∈ ep'.log := by rw [hl]; exact List.mem_append_right _ hp
  have hcalls : respCalls id ep'.log = respCalls id l ++ respCalls id ep.log := by rw [hl]; exact List.filterMap_append ..
  have hpos : 0 < (respCalls id l).length := by
    refine List.length_pos_of_mem (a := r) ?_
    exact List.mem_filterMap.2 ⟨_, hr, by simp⟩
  have hw : q.wantsCb = true := by
    cases hq : q.wantsCb with
    | true => rfl
    | false =>
      have := C47_none h' (id := id) fun a b c hc => by rw [← assocReq_unique h' hp' hc]; exact hq
      rw [hcalls] at this
      rw [List.append_eq_nil_iff] at this
      rw [this.1] at hpos
      cases hpos
  simp only [PMsg.wantsCb, Bool.and_eq_true, Bool.not_eq_true'] at hw
  have hone := C47_at_most_once h' id
  rw [hcalls, List.length_append] at hone
  have hd : drops id ep'.log = drops id l + drops id ep.log := by rw [hl]; exact List.countP_append ..
  rcases C47_exactly_once_partial h hp hw.1 hw.2 with ⟨hx, _⟩ | ⟨_, h1, _⟩ | ⟨_, _, h1⟩
  · exact hn hx
  · omega
  · rcases C47_exactly_once_partial h' hp' hw.1 hw.2 with ⟨_, h2, h3⟩ | ⟨_, h2, h3⟩ | ⟨_, h2, h3⟩
    · omega
    · omega
    · rw [hcalls, List.length_append] at h2
      omega

/-- C63, exactly: a CP peer that waits for a response, while no request of its is pending, is stuck: whatever happens, it never
leaves this state, and never sends a request again.  (Otherwise `C63_retried_partial`.) -/
theorem C63_stuck {ep ep' : Ep} (h : Reached ep) (hlt : Later ep ep') {fi p} (hp : ep.peer? fi = some p) (hs : p.state = .waitAssoc)
    (hn : ∀ id remote seq, AssocReqOf fi remote id seq ep.log → ¬ ep.pending id) :
    ∃ l, ep'.log = l ++ ep.log ∧ (∀ s, Event.peer fi (.state s) ∉ l) ∧ (∀ id remote seq, ¬ AssocReqOf fi remote id seq l) ∧
      ∃ p', ep'.peer? fi = some p' ∧ p'.state = .waitAssoc := by
  have h' := hlt.reached h
  obtain ⟨l, hl⟩ := hlt.log h
  have hst := C60_state h hp
  obtain ⟨z, hps⟩ : ∃ z, peerStates fi ep.log = .waitAssoc :: z := by
    cases hps : peerStates fi ep.log with
    | nil => rw [hps] at hst; cases hst
    | cons y z =>
      rw [hps] at hst
      cases hst
      exact ⟨z, by rw [hs]⟩
  have key : ∀ s, Event.peer fi (.state s) ∉ l := by
    intro s hm
    obtain ⟨a, s, b, rfl, hb⟩ := oldest_state ⟨s, hm⟩
    have hf := C60_taken h' fi
    rw [hl, List.append_assoc] at hf
    obtain ⟨x, hx⟩ := peerStates_append fi a (.peer fi (.state s) :: b ++ ep.log)
    rw [hx] at hf
    have hf := hf.suffix'
    rw [List.cons_append, peerStates_cons] at hf
    simp only [if_pos] at hf
    rw [peerStates_without hb, hps] at hf
    have hm := h'.moves.all
    rw [hl, List.append_assoc] at hm
    have sub : ∀ {id r t l' remote seq}, b ++ ep.log = .respCb id r t :: l' → AssocReqOf fi remote id seq l' → False := by
      intro id r t l' remote seq hbl ha
      cases b with
      | nil => exact h.settled.head _ _ _ _ hbl
      | cons e b =>
        obtain ⟨rfl, rfl⟩ := List.cons.inj hbl
        obtain ⟨n1, t1, q, hq, ha1, ha2, ha3, ha4, ha5⟩ := ha
        have hq : Event.passed id n1 t1 q ∈ b ++ ep.log := hq
        rcases List.mem_append.1 hq with hq | hq
        · obtain ⟨b1, b2, rfl⟩ := List.append_of_mem hq
          obtain ⟨-, fi', l', hf', hb2⟩ := C109_request h' (id := id) (n1 := n1) (t1 := t1) (q := q)
            (a := a ++ .peer fi (.state s) :: .respCb id r t :: b1) (l := b2 ++ ep.log) (by rw [hl]; simp) ha5
          rw [ha4] at hf'
          cases hf'
          cases b2 with
          | nil => exact h.moves.settled _ _ hb2
          | cons e b2 =>
            obtain ⟨rfl, -⟩ := List.cons.inj hb2
            exact hb .waitAssoc (by simp)
        · exact no_call h hlt hl hq (hn id _ _ ⟨n1, t1, q, hq, ha1, ha2, ha3, ha4, ha5⟩) (r := r) (t := t) (by simp)
    rcases hm.at' with rfl | ⟨_, _, _, _, _, _, _, h1, h2, _⟩ | ⟨_, _, _, _, _, _, _, h1, h2, _⟩
    · have := hf.1
      simp [taken] at this
    · exact sub h1 h2
    · exact sub h1 h2
  refine ⟨l, hl, key, ?_, ?_⟩
  · rintro id remote seq ⟨n1, t1, q, hq, -, -, -, hf, hc⟩
    obtain ⟨a, b, rfl⟩ := List.append_of_mem hq
    obtain ⟨-, fi', l', hf', hb⟩ := C109_request h' (hl.trans (List.append_assoc ..)) hc
    rw [hf] at hf'
    cases hf'
    cases b with
    | nil => exact h.moves.settled _ _ hb
    | cons e b =>
      obtain ⟨rfl, -⟩ := List.cons.inj hb
      exact key .waitAssoc (by simp)
  · cases hp' : ep'.peer? fi with
    | none =>
      have := peerStates_absent (h'.both.peer.absent fi hp')
      rw [hl, peerStates_without key, hps] at this
      cases this
    | some p' => exact ⟨p', rfl, (same_state h h' hl key hp hp').trans hs⟩

/-- Example: after osmo_pfcp_endpoint_close(), which drops the request.  The response, associate(), and a long time do not help. -/
example : ∃ ep p, exec (exAssociate ++ [.app (.close .done)]) exEp = .ok ep ∧ ep.peer? 7 = some p ∧ p.state = .waitAssoc ∧ ep.reqs = [] :=
  ⟨_, _, rfl, rfl, rfl, rfl⟩
example : peerObs 7 (exAssociate ++ [.app (.close (.bind true .done)), .rx exUpf exAccept [], .app (.associate 7 true .done), .advance 1000000,
    .peerTimer 7 true]) = some ([.waitAssoc, .disabled], false, [], [], 0) := by
  set_option maxRecDepth 100000 in rfl

end Verif.Props
