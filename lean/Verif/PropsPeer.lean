/-
Properties of CP peers (C60 to C65).
-/
import Verif.PropsEndpoint5

namespace Verif
open Spec

theorem nodeId_wire_length {n : NodeId} (h : InRange (.nodeId n)) : (wire (.nodeId n)).length ≤ 255 := by
  cases n with
  | v4 a => simp [wire, (IsV4.octets h).2]
  | v6 a => simp [wire, (IsV6.octets h).2]
  | fqdn s =>
    have h : GoodName s := h
    have := h.1
    simp only [wire, List.length_append, labelOctets_length, List.length_cons, List.length_nil]
    omega
  | other t => exact absurd h id

/-- The IEs of the Association Setup Request, as sent. -/
def assocIes (n : NodeId) (rts : Nat) : Struct IeVal :=
  [[.leaf (.nodeId n)], [.leaf (.u32 rts)], [], [.leaf (.cpFeatures [16])]]

def assocFields : Fields := layout
    [ (Iei.nodeId, once, .ie .nodeId), (Iei.recoveryTimeStamp, once, .ie .u32),
      (Iei.upFunctionFeatures, maybe, .ie .upFeatures), (Iei.cpFunctionFeatures, maybe, .ie .cpFeatures) ]

theorem assocIes_good {n rts} (hn : InRange (.nodeId n)) (hr : rts < 2 ^ 32) : GoodStruct assocFields (assocIes n rts) := by
  refine ⟨⟨by simp [least], by simp [most]⟩, ?_, ⟨by simp [least], by simp [most]⟩, ?_, ⟨by simp [least], by simp⟩, ?_,
    ⟨by simp [least], by simp [most]⟩, ?_, trivial⟩
  · intro v hv; cases List.mem_singleton.mp hv; exact ⟨rfl, hn⟩
  · intro v hv; cases List.mem_singleton.mp hv; exact ⟨rfl, hr⟩
  · intro v hv; cases hv
  · intro v hv; cases List.mem_singleton.mp hv; exact ⟨rfl, rfl⟩

theorem assocIes_octets (n rts) : structOctets assocFields (assocIes n rts) =
    ie16 (60, wire (.nodeId n)) ++ ie16 (96, be 4 rts) ++ ie16 (89, [0x10]) := by
  show (ie16 (60, wire (.nodeId n)) ++ []) ++ ((ie16 (96, be 4 rts) ++ []) ++ ([] ++ ((ie16 (89, [0x10]) ++ []) ++ []))) = _
  simp

theorem assoc_encode {m : PMsg} {n rts seq} (hh : m.h = { version := 1, type := 5, seq }) (hi : m.ies = assocIes n rts)
    (he : m.encoded = none) (hn : InRange (.nodeId n)) (hr : rts < 2 ^ 32) (hs : seq < 2 ^ 24) :
    m.encode = .ok (assocReqOctets n rts seq) := by
  have hw := nodeId_wire_length hn
  have hlen : (structOctets assocFields (assocIes n rts)).length ≤ 300 := by
    rw [assocIes_octets]
    simp [ie16]
    omega
  have hg : GoodHdr { version := 1, type := 5, seq } := ⟨by simp, by simp, hs, by simp, by simp, by simp⟩
  have hml := msgOctets_length false { version := 1, type := 5, seq } (structOctets assocFields (assocIes n rts))
  have hbl := bodyOctets_length { version := 1, type := 5, seq } (structOctets assocFields (assocIes n rts))
  simp only [headerLen, Bool.false_eq_true, if_false] at hml hbl
  obtain ⟨buf, b1, b2, -⟩ := Props.C19_message_round_trip { version := 1, type := 5, seq } assocFields (assocIes n rts) 2048 rfl hg
    (assocIes_good hn hr) (by omega) (by omega)
  unfold PMsg.encode
  rw [he, hh, hi]
  simp only [allocSize, b1, b2, assocIes_octets]
  rfl

theorem Reached.rts_lt {ep : Ep} (h : Reached ep) : ep.rts < 2 ^ 32 := by
  refine h.invariant (I := fun x => x.1.rts < 2 ^ 32) ?_ ?_
  · intro a b hi hm
    cases hm <;> simp_all [Ep.logs, Ep.note, Ep.dropCtx, Ep.closed, Ep.enqueue]
    case txQueued => split <;> simp_all
  · intro cfg n1 t1 k u n
    exact Nat.mod_lt _ (by omega)

/-- What the log says after an attempt to associate, the latest first: the state changes, a message is sent unless
the socket is closed, and if that fails, or if there are no retransmissions, resp_cb() is told so and the peer
waits to retry. -/
def attemptLog (ep : Ep) (fi : Nat) (remote : Sockaddr) (q : PMsg) (io : Bool) : List Event :=
  (if ep.sock = true ∧ io = true then
    if ep.n1 = 0 ∨ ep.t1 = 0 then
      [.returned ep.nextId none, .peer fi (.state .waitRetry), .respCb ep.nextId none ep.now]
    else [.returned ep.nextId none]
   else
    [.returned ep.nextId (some .EIO), .freed ep.nextId, .peer fi (.state .waitRetry), .respCb ep.nextId none ep.now]) ++
  (if ep.sock = true then
    [.send .tx ep.nextId remote (assocReqOctets ep.cfg.nodeId ep.rts (nextSeqNr ep.seq).toNat) io ep.now]
   else []) ++
  [.passed ep.nextId ep.n1 ep.t1 q, .peer fi (.state .waitAssoc)]

theorem assocStart_spec {ep : Ep} {fi p} (hp : ep.peer? fi = some p) (hs : p.state = .disabled ∨ p.state = .waitRetry)
    (hn : InRange (.nodeId ep.cfg.nodeId)) (hr : ep.rts < 2 ^ 32) (io : Bool) :
    ∃ ep' q, ep.assocStart fi p io = .ok ep' ∧ q.h.type = 5 ∧ q.h.seq = (nextSeqNr ep.seq).toNat ∧ q.remote = p.remote ∧
      q.isResponse = false ∧
      q.ctx = { respCb := some .assoc, peerFi := some fi, peerUse := some (fi, tokenTx) } ∧
      ep'.log = attemptLog ep fi p.remote q io ++ ep.log ∧
      (ep.sock = true ∧ io = true ∧ ¬ (ep.n1 = 0 ∨ ep.t1 = 0) → ep'.pending ep.nextId) := by
  have hfi := peer?_fi hp
  have hper : p.state.permits .waitAssoc = true := by rcases hs with hs | hs <;> rw [hs] <;> rfl
  unfold Ep.assocStart
  rw [if_neg (by simp [hper])]
  dsimp only
  have h1 := peerChg_some hp hper
  have hp1 : (ep.peerChg fi .waitAssoc).peer? fi = some (p.enter .waitAssoc ep.now ep.t26) := by
    rw [h1]; exact setPeer_peer? hp hfi rfl
  have hl1 : (ep.peerChg fi .waitAssoc).log = .peer fi (.state .waitAssoc) :: ep.log := by rw [h1]; rfl
  have hf1 : (ep.peerChg fi .waitAssoc).cfg = ep.cfg ∧ (ep.peerChg fi .waitAssoc).sock = ep.sock ∧
      (ep.peerChg fi .waitAssoc).n1 = ep.n1 ∧ (ep.peerChg fi .waitAssoc).t1 = ep.t1 ∧
      (ep.peerChg fi .waitAssoc).seq = ep.seq ∧ (ep.peerChg fi .waitAssoc).rts = ep.rts ∧
      (ep.peerChg fi .waitAssoc).now = ep.now ∧ (ep.peerChg fi .waitAssoc).nextId = ep.nextId := by
    rw [h1]; exact ⟨rfl, rfl, rfl, rfl, rfl, rfl, rfl, rfl⟩
  generalize ep.peerChg fi .waitAssoc = ep1 at hp1 hl1 hf1 ⊢
  obtain ⟨f1, f2, f3, f4, f5, f6, f7, f8⟩ := hf1
  obtain ⟨m, hm⟩ : ∃ m, m = assocReq p ep1.rts := ⟨_, rfl⟩
  have mctx : m.ctx = { respCb := some .assoc, peerFi := some fi, peerUse := some (fi, tokenTx) } := by
    rw [hm, assocReq_ctx, hfi]
  have mresp : m.isResponse = false := by rw [hm]; rfl
  rw [← hm]
  obtain ⟨ep2, he2⟩ : ∃ ep2, ep2 = ep1.takeUses m.ctx.uses := ⟨_, rfl⟩
  rw [← he2]
  have g1 : ep2.cfg = ep.cfg ∧ ep2.sock = ep.sock ∧ ep2.n1 = ep.n1 ∧ ep2.t1 = ep.t1 ∧ ep2.seq = ep.seq ∧ ep2.rts = ep.rts ∧
      ep2.now = ep.now ∧ ep2.nextId = ep.nextId ∧ ep2.log = ep1.log ∧ ep2.peers = ep1.peers ∧ 1 ≤ ep2.use (fi, tokenTx) := by
    rw [he2]
    refine ⟨f1, f2, f3, f4, f5, f6, f7, f8, rfl, rfl, ?_⟩
    show 1 ≤ ep1.use _ + m.ctx.uses.count _
    rw [mctx]
    have : ({ respCb := some Cb.assoc, peerFi := some fi, peerUse := some (fi, tokenTx) } : Ctx).uses.count (fi, tokenTx) = 1 := by
      simp [Ctx.uses]
    omega
  obtain ⟨g1, g2, g3, g4, g5, g6, g7, g8, g9, g10, g11⟩ := g1
  obtain ⟨q, hq⟩ : ∃ q, q = ep2.outgoing m := ⟨_, rfl⟩
  have hqo : q = { m with h := { version := 1, type := 5, seq := (nextSeqNr ep.seq).toNat }, ies := assocIes ep.cfg.nodeId ep.rts } := by
    rw [hq]
    unfold Ep.outgoing
    rw [mresp, g5, g1, hm, f6]
    rfl
  have hqe : q.encode = .ok (assocReqOctets ep.cfg.nodeId ep.rts (nextSeqNr ep.seq).toNat) := by
    refine assoc_encode ?_ ?_ ?_ hn hr (Props.C30_in_range _).2
    · rw [hqo]
    · rw [hqo]
    · rw [hqo, hm]; rfl
  have hqr : q.remote = p.remote := by rw [hqo, hm]; rfl
  have hqc : q.ctx = m.ctx := by rw [hqo]
  have hqs : q.isResponse = false := by rw [hqo]; exact mresp
  -- resp_cb() is told that sending has failed
  have hfail : ∀ (ep3 : Ep) (enc), ep3.peers = ep1.peers → ep3.now = ep.now →
      ∃ ps, ep3.failCb ep.nextId { q with encoded := enc } (fun ep => ep.assocResp m.ctx none .ok) =
        .ok { ep3 with peers := ps, log := .peer fi (.state .waitRetry) :: .respCb ep.nextId none ep.now :: ep3.log } ∧
      ({ ep3 with peers := ps } : Ep).peer? fi = some ((p.enter .waitAssoc ep.now ep.t26).enter .waitRetry ep3.now ep3.t26) := by
    intro ep3 enc h3 hn3
    have hp3 : ep3.peer? fi = some (p.enter .waitAssoc ep.now ep.t26) := by rw [peer?_eq h3]; exact hp1
    have hp3' : ({ ep3.note (.respCb ep.nextId none ep3.now) with busy := ep.nextId :: ep3.busy } : Ep).peer? fi =
      some (p.enter .waitAssoc ep.now ep.t26) := hp3
    refine ⟨setPeer ep3.peers ((p.enter .waitAssoc ep.now ep.t26).enter .waitRetry ep3.now ep3.t26), ?_, ?_⟩
    · unfold Ep.failCb
      rw [if_pos ⟨by simp [hqs], by simp [PMsg.hasCb, hqc, mctx]⟩]
      unfold Ep.using Ep.assocResp
      rw [mctx]
      dsimp only
      have hx : (ep3.note (.respCb ep.nextId none ep3.now)).busy = ep3.busy := rfl
      rw [hx, hp3', peerChg_some hp3' rfl]
      simp only [Res.bind, Ep.note, hn3]
    · exact setPeer_peer? hp3 hfi rfl
  rw [tx_eq, g8, ← hq]
  have hpe : (ep2.begun m).peers = ep1.peers := by rw [begun_peers, g10]
  have hnow : (ep2.begun m).now = ep.now := by rw [begun_now, g7]
  have huse : (ep2.begun m).use (fi, tokenTx) = ep2.use (fi, tokenTx) := by rw [begun_use]
  have hsock : (ep2.begun m).sock = ep.sock := by rw [begun_sock, g2]
  have hn1 : (ep2.begun m).n1 = ep.n1 := by rw [begun_n1, g3]
  have ht1 : (ep2.begun m).t1 = ep.t1 := by rw [begun_t1, g4]
  have hlg : (ep2.begun m).log = .peer fi (.state .waitAssoc) :: ep.log := by rw [begun_log, g9, hl1]
  rw [g3, g4]
  have hfields : q.h.type = 5 ∧ q.h.seq = (nextSeqNr ep.seq).toNat ∧ q.remote = p.remote ∧ q.isResponse = false ∧
      q.ctx = { respCb := some .assoc, peerFi := some fi, peerUse := some (fi, tokenTx) } :=
    ⟨by rw [hqo], by rw [hqo], hqr, hqs, by rw [hqc, mctx]⟩
  have hseq : (ep2.begun m).nextId = ep.nextId + 1 := by rw [begun_nextId, g8]
  generalize ep2.begun m = ep3 at *
  obtain ⟨o, ho⟩ : ∃ o, o = assocReqOctets ep.cfg.nodeId ep.rts (nextSeqNr ep.seq).toNat := ⟨_, rfl⟩
  rw [← ho] at hqe
  -- osmo_pfcp_endpoint_tx() fails
  have lost : ∀ ep4 : Ep, ep4.peers = ep1.peers → ep4.now = ep.now → ep4.use = ep3.use →
      ∃ ep', (((ep4.failCb ep.nextId { q with encoded := some o } fun ep => ep.assocResp m.ctx none .ok).bind fun ep2 =>
        (ep2.releaseUses ({ q with encoded := some o } : PMsg).ctx.uses).bind fun ep3 =>
          .ok ((ep3.note (.freed ep.nextId)).note (.returned ep.nextId (some .EIO)))).bind fun ep =>
        .ok (if txFailed ep.log = true then ep.peerChg fi .waitRetry else ep)) = .ok ep' ∧
        ep'.log = [.returned ep.nextId (some .EIO), .freed ep.nextId, .peer fi (.state .waitRetry), .respCb ep.nextId none ep.now] ++
          ep4.log := by
    intro ep4 a1 a2 a3
    obtain ⟨ps, hfc, hpp⟩ := hfail ep4 (some o) a1 a2
    rw [hfc]
    simp only [Res.bind]
    have hu : ({ q with encoded := some o } : PMsg).ctx.uses = [(fi, tokenTx)] := by
      show q.ctx.uses = _
      rw [hqc, mctx]; rfl
    rw [hu]
    obtain ⟨ep5, h5⟩ := releaseUses_total (us := [(fi, tokenTx)])
      (ep := { ep4 with peers := ps, log := .peer fi (.state .waitRetry) :: .respCb ep.nextId none ep.now :: ep4.log }) (by
      intro u
      show _ ≤ ep4.use u
      rw [a3]
      by_cases hu : u = (fi, tokenTx)
      · rw [hu, huse]; simp; omega
      · rw [List.count_cons_of_ne (fun h => hu h.symm)]; simp)
    rw [h5]
    obtain ⟨rfl, -⟩ := releaseUses_ok h5
    dsimp only
    refine ⟨_, rfl, ?_⟩
    rw [if_pos (by simp [Ep.note, txFailed])]
    have href : ∀ x : Ep, x.peers = ps → x.peerChg fi .waitRetry = x := by
      intro x hx
      refine peerChg_refused (p := (p.enter .waitAssoc ep.now ep.t26).enter .waitRetry ep4.now ep4.t26) ?_ rfl
      rw [← hpp]
      exact peer?_eq hx fi
    rw [href _ rfl]
    rfl
  by_cases hsk : ep.sock = true
  · rw [hsk] at hsock
    have hsend : (ep3.note (.passed ep.nextId ep.n1 ep.t1 q)).sendMsg .tx ep.nextId q io =
        .ok ((ep3.note (.passed ep.nextId ep.n1 ep.t1 q)).note (.send .tx ep.nextId q.remote o io ep.now), { q with encoded := some o },
          if io = true then none else some .EIO) := by
      unfold Ep.sendMsg
      rw [hqe]
      simp only [Ep.note, hsock, if_true, hnow]
    rw [hsend]
    cases io with
    | false =>
      obtain ⟨ep', h1', h2'⟩ := lost ((ep3.note (.passed ep.nextId ep.n1 ep.t1 q)).note (.send .tx ep.nextId q.remote o false ep.now))
        hpe hnow rfl
      refine ⟨ep', q, h1', hfields.1, hfields.2.1, hfields.2.2.1, hfields.2.2.2.1, hfields.2.2.2.2, ?_, by simp⟩
      rw [h2']
      unfold attemptLog
      simp [hsk, Ep.note, hlg, hqr, ho]
    | true =>
      rw [if_pos rfl]
      simp only [Res.bind_ok']
      by_cases hz : ep.n1 = 0 ∨ ep.t1 = 0
      · obtain ⟨ps, hfc, hpp⟩ := hfail ((ep3.note (.passed ep.nextId ep.n1 ep.t1 q)).note (.send .tx ep.nextId q.remote o true ep.now))
          (some o) hpe hnow
        unfold Ep.queueAdd
        rw [if_pos (by simpa [Ep.note, hn1, ht1] using hz), hfc]
        simp only [Res.bind_ok']
        refine ⟨_, q, rfl, hfields.1, hfields.2.1, hfields.2.2.1, hfields.2.2.2.1, hfields.2.2.2.2, ?_, fun h => absurd hz h.2.2⟩
        rw [if_neg (by simp [Ep.note, txFailed])]
        unfold attemptLog
        simp [hsk, Ep.note, hlg, hqr, ho, hz]
      · unfold Ep.queueAdd
        rw [if_neg (by simpa [Ep.note, hn1, ht1] using hz), if_neg (by simp [hqs])]
        simp only [Res.bind_ok']
        refine ⟨_, q, rfl, hfields.1, hfields.2.1, hfields.2.2.1, hfields.2.2.2.1, hfields.2.2.2.2, ?_, fun _ => ?_⟩
        · rw [if_neg (by simp [Ep.note, txFailed])]
          unfold attemptLog
          simp [hsk, Ep.note, hlg, hqr, ho, hz]
        · rw [if_neg (by simp [Ep.note, txFailed])]
          exact ⟨_, .head _, rfl⟩
  · have hsk' : ep3.sock = false := by rw [hsock]; simpa using hsk
    have hsend : (ep3.note (.passed ep.nextId ep.n1 ep.t1 q)).sendMsg .tx ep.nextId q io =
        .ok (ep3.note (.passed ep.nextId ep.n1 ep.t1 q), { q with encoded := some o }, some .EIO) := by
      unfold Ep.sendMsg
      rw [hqe]
      simp only [Ep.note, hsk', Bool.false_eq_true, if_false]
    rw [hsend]
    obtain ⟨ep', h1', h2'⟩ := lost (ep3.note (.passed ep.nextId ep.n1 ep.t1 q)) hpe hnow rfl
    refine ⟨ep', q, h1', hfields.1, hfields.2.1, hfields.2.2.1, hfields.2.2.2.1, hfields.2.2.2.2, ?_, fun h => absurd h.1 hsk⟩
    rw [h2']
    unfold attemptLog
    simp [hsk, Ep.note, hlg]

/-! ### Lists of states -/

theorem Follows.mono {ts ts' : List (PState × PState)} (h : ∀ x ∈ ts, x ∈ ts') : ∀ {l}, Follows ts l → Follows ts' l
  | [], _ => trivial
  | [_], hl => hl
  | _ :: _ :: _, hl => ⟨h _ hl.1, Follows.mono h hl.2⟩

/-- No transition leaves "associated". -/
theorem taken_final : ∀ x ∈ taken, x.1 ≠ .associated := by decide

theorem Follows.tail {ts s l} (h : Follows ts (s :: l)) (hl : l ≠ []) : Follows ts l := by
  cases l with
  | nil => exact absurd rfl hl
  | cons a l => exact h.2

/-- "associated" can only be the latest state. -/
theorem Follows.final : ∀ {l : List PState}, Follows taken l → ∀ {a b}, l = a ++ .associated :: b → a = []
  | _, _, [], _, _ => rfl
  | l, h, x :: a, b, hl => by
    exfalso
    subst hl
    have h' : Follows taken (a ++ .associated :: b) := h.tail (by simp)
    have ha := Follows.final h' (a := a) rfl
    subst ha
    exact taken_final _ h.1 rfl

theorem peerStates_append (fi) : ∀ (l log : List Event), ∃ s, peerStates fi (l ++ log) = s ++ peerStates fi log
  | [], _ => ⟨[], rfl⟩
  | e :: l, log => by
    obtain ⟨s, hs⟩ := peerStates_append fi l log
    cases e
    case peer f e =>
      cases e with
      | state st =>
        show ∃ s', (if f = fi then st :: peerStates fi (l ++ log) else peerStates fi (l ++ log)) = s' ++ _
        split
        · exact ⟨st :: s, by rw [hs]; rfl⟩
        · exact ⟨s, hs⟩
      | assocCb b => exact ⟨s, hs⟩
      | cbSet b => exact ⟨s, hs⟩
    all_goals exact ⟨s, hs⟩

namespace Props

/-! ### Examples -/

/-- The address of a UPF. -/
def exUpf : Sockaddr := .inet 0x0a000001 8805
/-- A CP peer with FSM instance 7, that has an assoc_cb, begins to associate. -/
def exAssociate : List Op := [.app (.bind true (.newPeer 7 exUpf (.setAssocCb 7 true (.associate 7 true .done))))]
/-- An Association Setup Response (Node ID 10.0.0.1, Cause 1, Recovery Time Stamp 9), and one with Cause 64. -/
def exAccept : List UInt8 := [32, 6, 0, 26, 0, 0, 1, 0, 0, 60, 0, 5, 0, 10, 0, 0, 1, 0, 19, 0, 1, 1, 0, 96, 0, 4, 0, 0, 0, 9]
def exReject : List UInt8 := [32, 6, 0, 26, 0, 0, 1, 0, 0, 60, 0, 5, 0, 10, 0, 0, 1, 0, 19, 0, 1, 64, 0, 96, 0, 4, 0, 0, 0, 9]
/-- A Session Deletion Response (SEID flag not set) with Cause 1. -/
def exDelResp : List UInt8 := [32, 55, 0, 9, 0, 0, 1, 0, 0, 19, 0, 1, 1]

/-- What can be seen of a CP peer after a history: its states (the latest first), whether osmo_pfcp_cp_peer_is_associated(),
the calls of assoc_cb(), which requests are pending, its use count for sent messages. -/
def peerObs (fi : Nat) (ops : List Op) : Option (List PState × Bool × List Bool × List Nat × Nat) :=
  match exec ops exEp with
  | .ok ep => some (peerStates fi ep.log, (ep.peer? fi).any Peer.isAssociated,
      ep.log.filterMap (fun e => match e with | .peer f (.assocCb b) => if f = fi then some b else none | _ => none),
      ep.reqs.map (·.id), ep.use (fi, tokenTx))
  | _ => none

example : peerObs 7 exAssociate = some ([.waitAssoc, .disabled], false, [], [0], 1) := by decide
set_option maxRecDepth 100000 in
example : peerObs 7 (exAssociate ++ [.rx exUpf exAccept []]) =
    some ([.associated, .waitAssoc, .disabled], true, [true], [], 0) := by rfl
set_option maxRecDepth 100000 in
example : peerObs 7 (exAssociate ++ [.rx exUpf exReject []]) =
    some ([.waitRetry, .waitAssoc, .disabled], false, [], [], 0) := by rfl
/-- After the rejection, it tries again when T26 has expired. -/
example : peerObs 7 (exAssociate ++ [.rx exUpf exReject [], .advance 15000, .peerTimer 7 true]) =
    some ([.waitAssoc, .waitRetry, .waitAssoc, .disabled], false, [], [2], 1) := by
  set_option maxRecDepth 100000 in rfl

/-! ### C60: the state machine -/

/-- C60: every CP peer begins as "disabled", and goes from state to state by declared transitions only. -/
theorem C60_declared {ep : Ep} (h : Reached ep) (fi : Nat) : Follows declared (peerStates fi ep.log) :=
  (h.both.peer.legal fi).mono (by decide)

/-- C60: in fact only four transitions are ever taken. -/
theorem C60_taken {ep : Ep} (h : Reached ep) (fi : Nat) : Follows taken (peerStates fi ep.log) := h.both.peer.legal fi

/-- C60: the state of a CP peer is the latest one that was reported. -/
theorem C60_state {ep : Ep} (h : Reached ep) {fi p} (hp : ep.peer? fi = some p) :
    (peerStates fi ep.log).head? = some p.state := h.both.peer.state fi p hp

/-- C60: osmo_pfcp_cp_peer_associate() always returns, it cannot fail an assertion nor access anything that it must not. -/
theorem C60_associate_returns {ep : Ep} (h : Reached ep) (hn : InRange (.nodeId ep.cfg.nodeId)) (fi : Nat) (io : Bool) :
    ∃ ep', ep.associate fi io = .ok ep' := by
  unfold Ep.associate
  cases hp : ep.peer? fi with
  | none => exact ⟨_, rfl⟩
  | some p =>
    dsimp only
    split
    · rename_i hs
      obtain ⟨ep', q, h1, -⟩ := assocStart_spec hp hs hn h.rts_lt io
      exact ⟨ep', h1⟩
    · exact ⟨_, rfl⟩

/-- C60: likewise for the timer of a CP peer. -/
theorem C60_timer_returns {ep : Ep} (h : Reached ep) (hn : InRange (.nodeId ep.cfg.nodeId)) (fi : Nat) (io : Bool) :
    ∃ ep', ep.peerTimer fi io = .ok ep' := by
  rcases h.both.peer.peerTimer_eq fi io with ⟨hx, _⟩ | ⟨p, hp, hs, _, hx⟩
  · exact ⟨_, hx⟩
  · obtain ⟨ep', q, h1, -⟩ := assocStart_spec hp (.inr hs) hn h.rts_lt io
    exact ⟨ep', hx.trans h1⟩

/-- C60: a CP peer of which anything was ever observed still exists: none is ever terminated. -/
theorem C60_kept {ep : Ep} (h : Reached ep) {fi e} (he : Event.peer fi e ∈ ep.log) : ∃ p, ep.peer? fi = some p := by
  cases hp : ep.peer? fi with
  | none => exact absurd he (h.both.peer.absent fi hp e)
  | some p => exact ⟨p, rfl⟩

/-- An Association Setup Request of a CP peer. -/
theorem assoc_entry {ep : Ep} (h : Reached ep) {e : QEntry} {fi r seq} (hr : AssocReqOf fi r e.id seq ep.log) :
    AssocEntry ep.log fi e := by
  obtain ⟨n1, t1, q, hq, _, _, _, hf, hc⟩ := hr
  exact owner_of hq hc hf (fun a b c a' b' c' => h.both.use.one _ a b c a' b' c')

/-- C60: when a pending Association Setup Request of a CP peer gets a response, or none, resp_cb() handles it without
failing, unless the application has called osmo_pfcp_endpoint_invalidate_ctx() for this CP peer's FSM instance. -/
theorem C60_response_handled_partial {ep : Ep} (h : Reached ep) {e} (he : e ∈ ep.reqs) {fi r seq}
    (hr : AssocReqOf fi r e.id seq ep.log) (hno : Event.invalidated fi ∉ ep.log) (resp : Option PMsg) :
    ∃ ep', ep.assocResp e.m.ctx resp .ok = .ok ep' := by
  have hae := assoc_entry h hr
  obtain ⟨n1, t1, q, hq, _, _, _, hf, hc⟩ := hr
  obtain ⟨m, hm, hrel, _⟩ := h.both.use.queued e (List.mem_append_left _ he)
  obtain ⟨n1', t1', hm⟩ := live_passed hm
  cases h.both.use.one _ _ _ _ _ _ _ hm hq
  have hf' : e.m.ctx.peerFi = some fi := by
    rcases hrel.peer with ⟨h1, _⟩ | ⟨⟨f, h1, h2⟩, _⟩
    · exact h1.trans hf
    · rw [hf] at h1
      cases h1
      exact absurd h2 hno
  obtain ⟨p, hp, hst, _⟩ := h.both.peer.pend fi e he hae (by simp)
  unfold Ep.assocResp
  rw [hf']
  dsimp only
  rw [hp]
  dsimp only
  cases resp with
  | none => exact ⟨_, rfl⟩
  | some m =>
    dsimp only
    split
    · exact ⟨_, rfl⟩
    · rw [if_neg (by simp [hst])]
      split
      · exact ⟨_, rfl⟩
      · exact ⟨_, rfl⟩

/-- C60 is not true without that: the response is then handled with a NULL pointer instead of the CP peer. -/
theorem C60_invalidated_peer :
    exec (exAssociate ++ [.app (.invalidate 7 .done), .rx exUpf exAccept []]) exEp = .ub := by
  set_option maxRecDepth 100000 in rfl

/-! ### C61: associated only if accepted -/

/-- C61: a CP peer is associated only if it got, for one of its Association Setup Requests, a response with Cause "Request
accepted".  Not proved, because it is not true: that this is an Association Setup Response, and that it comes from the
peer. -/
theorem C61_accepted_partial {ep : Ep} (h : Reached ep) {fi p} (hp : ep.peer? fi = some p) (ha : p.isAssociated = true) :
    Accepted fi p.remote ep.log := h.both.peer.acc fi p hp (by simpa [Peer.isAssociated] using ha)

/-- C61: assoc_cb(true) is called exactly when a CP peer becomes associated. -/
theorem C61_callback {ep : Ep} (h : Reached ep) : CbOk ep.log := h.both.peer.cbok

/-- What on_pfcp_assoc_resp() does with a response. -/
theorem assocResp_log {T R} {ep ep' : Ep} {e fi m} {a : App} (h : Both T R none none ep) (he : e ∈ ep.reqs)
    (hae : AssocEntry ep.log fi e) (hx : ep.assocResp e.m.ctx (some m) a.run = .ok ep') :
    ∃ l s, ep'.log = l ++ .peer fi (.state s) :: ep.log ∧
      (RequestAccepted m ∧ s = .associated ∨ ¬ RequestAccepted m ∧ s = .waitRetry) := by
  obtain ⟨p, hp, hst, _⟩ := h.peer.pend fi e he hae (by simp)
  have hf : e.m.ctx.peerFi = some fi := by
    obtain ⟨q, hm, hrel, _⟩ := h.use.queued e (List.mem_append_left _ he)
    obtain ⟨n1', t1', hm⟩ := live_passed hm
    obtain ⟨_, _, q', hq', _, hf⟩ := owner_spec hae
    cases h.use.one _ _ _ _ _ _ _ hm hq'
    rcases hrel.peer with ⟨h1, _⟩ | ⟨_, h1, _⟩
    · exact h1.trans hf
    · unfold Ep.assocResp at hx
      rw [h1] at hx
      cases hx
  unfold Ep.assocResp at hx
  rw [hf] at hx
  dsimp only at hx
  rw [hp] at hx
  dsimp only at hx
  split at hx
  · rename_i hna
    cases hx
    refine ⟨[], .waitRetry, ?_, .inr ⟨fun h => hna (accepted_iff.mpr h), rfl⟩⟩
    rw [peerChg_some hp (by rw [hst]; rfl)]
    rfl
  · rename_i hac
    rw [if_neg (by simp [hst])] at hx
    have hac' : RequestAccepted m := accepted_iff.mp (by simpa using hac)
    have hl : (ep.peerChg fi .associated).log = .peer fi (.state .associated) :: ep.log := by
      rw [peerChg_some hp (by rw [hst]; rfl)]
      rfl
    split at hx
    · obtain ⟨l, hl2, _⟩ := (run_api _ _ _ hx).log
      exact ⟨l ++ [.peer fi (.assocCb true)], .associated, by rw [hl2]; simp [Ep.note, hl], .inl ⟨hac', rfl⟩⟩
    · cases hx
      exact ⟨[], .associated, by rw [hl]; rfl, .inl ⟨hac', rfl⟩⟩

/-- What happens when a response is found to be one to the pending Association Setup Request `e` of a CP peer. -/
theorem assoc_evaluated {ep ep' : Ep} (h : Reached ep) {m r} (hr : ep.handleRx m r = .ok ep') (hm : m.isResponse = true)
    {e} (he : e ∈ ep.reqs) (hfe : queueFind ep.reqs m = some e)
    {fi remote seq} (ha : AssocReqOf fi remote e.id seq ep.log) :
    ∃ a b s, ep'.log = a ++ .peer fi (.state s) :: .respCb e.id (some ep.nextId) ep.now :: b ++ ep.log ∧
      (RequestAccepted m ∧ s = .associated ∨ ¬ RequestAccepted m ∧ s = .waitRetry) := by
  have hcb : e.m.ctx.respCb = some Cb.assoc := h.both.use.entryAssoc he (assoc_entry h ha)
  unfold Ep.handleRx at hr
  obtain ⟨ep1, h1, hr⟩ := Res.bind_eq_ok hr
  obtain ⟨ep2, h2, hr⟩ := Res.bind_eq_ok hr
  obtain ⟨rfl, -⟩ := releaseUses_ok hr
  have hb0 : Both [] [] none none ({ ep with nextId := ep.nextId + 1 }.note (.received ep.nextId m)) :=
    h.both.same [.received ep.nextId m] rfl (by simp [idle, dull, plain]) rfl (Nat.le_succ _) rfl rfl rfl rfl
  obtain ⟨l1, hl1⟩ := heartbeatReply_log h1
  have hb1 : Both [] [] none none ep1 ∧ ep1.reqs = ep.reqs ∧ ep1.now = ep.now := by
    unfold Ep.heartbeatReply at h1
    split at h1
    · obtain ⟨⟨ep3, m3, rc⟩, h3, h1⟩ := Res.bind_eq_ok h1
      cases h1
      refine ⟨Both.sendMsg (ep := { ({ ep with nextId := ep.nextId + 1 }.note (.received ep.nextId m)) with
        nextId := ({ ep with nextId := ep.nextId + 1 }.note (.received ep.nextId m)).nextId + 1 }) ?_ h3, ?_⟩
      · exact hb0.same [] rfl (by simp) rfl (Nat.le_succ _) rfl rfl rfl rfl
      · rcases sendMsg_ok h3 with ⟨o, _, _, _, hr2⟩ | ⟨l, er, enc, _, _, hr2⟩ <;> cases hr2 <;> exact ⟨rfl, rfl⟩
    · cases h1; exact ⟨hb0, rfl, rfl⟩
  obtain ⟨hb1, hq1, hn1⟩ := hb1
  unfold Ep.handleMsg at h2
  rw [if_pos hm, hq1, hfe] at h2
  dsimp only at h2
  rw [if_pos hm] at h2
  obtain ⟨ep3, h3, h2⟩ := Res.bind_eq_ok h2
  obtain ⟨ep4, h4, he3⟩ := Res.bind_eq_ok h3
  cases he3
  dsimp only at h2
  split at h2
  rotate_left
  · cases h2
  obtain ⟨ep5, h5, h4⟩ := Res.bind_eq_ok h4
  have hb5 := (hb1.busy (e.id :: ep1.busy)).setCtx h5
  obtain ⟨l5, hl5, -⟩ := setCtx_adds h5
  have hl5' : ep5.log = l5 ++ ep1.log := hl5
  have hn5 : ep5.now = ep1.now := (setCtx_api h5).2.1
  rw [if_pos (by unfold PMsg.hasCb; rw [hcb]; rfl)] at h4
  obtain ⟨⟨ep6, rc⟩, h6, h4⟩ := Res.bind_eq_ok h4
  unfold Ep.respCall at h6
  rw [if_pos hcb] at h6
  split at h6
  · cases h6
  rename_i e5 hf5
  obtain ⟨he5, hid5⟩ := find_id hf5
  have he5 : e5 ∈ ep5.reqs := he5
  obtain ⟨ep7, h7, h6⟩ := Res.bind_eq_ok h6
  cases h6
  dsimp only at h4
  rw [if_pos (by simp)] at h4
  cases h4
  obtain ⟨l8, hl8, -⟩ := (queueDel_api h2).log
  have hl8' : ep2.log = l8 ++ ep4.log := hl8
  have hb6 := hb5.note (e := .respCb e.id (some ep.nextId) ep5.now) rfl
  have hae6 : AssocEntry (ep5.note (.respCb e.id (some ep.nextId) ep5.now)).log fi e5 := by
    have hA : AssocReqOf fi remote e5.id seq (ep5.note (.respCb e.id (some ep.nextId) ep5.now)).log := by
      rw [hid5]
      have : (ep5.note (.respCb e.id (some ep.nextId) ep5.now)).log =
          (.respCb e.id (some ep.nextId) ep5.now :: l5 ++ l1 ++ [.received ep.nextId m]) ++ ep.log := by
        show _ :: ep5.log = _
        rw [hl5', hl1]
        simp [Ep.note]
      rw [this]
      exact ha.mono _
    obtain ⟨n1, t1, q, hq, _, _, _, hf, hc⟩ := hA
    exact owner_of hq hc hf (fun a b c a' b' c' => hb6.use.one _ a b c a' b' c')
  obtain ⟨l7, s, hl7, hres⟩ := assocResp_log hb6 he5 hae6 h7
  refine ⟨l8 ++ l7, l5 ++ l1 ++ [.received ep.nextId m], s, ?_, hres⟩
  show ep2.log = _
  rw [hl8', hl7]
  show l8 ++ (l7 ++ _ :: _ :: ep5.log) = _
  rw [hl5', hl1, hn5, hn1]
  simp [Ep.note]

/-- C61: a response to the pending Association Setup Request of a CP peer is evaluated: with Cause "Request accepted" the CP peer
becomes associated, otherwise it waits for a retry. -/
theorem C61_evaluated {ep ep' : Ep} (h : Reached ep) {m r} (hr : ep.handleRx m r = .ok ep') (hm : m.isResponse = true)
    {e} (he : e ∈ ep.reqs) (hs : e.m.h.seq = m.h.seq) (hu : ∀ x ∈ ep.reqs, x.m.h.seq = m.h.seq → x = e)
    {fi remote seq} (ha : AssocReqOf fi remote e.id seq ep.log) :
    ∃ a b s, ep'.log = a ++ .peer fi (.state s) :: .respCb e.id (some ep.nextId) ep.now :: b ++ ep.log ∧
      (RequestAccepted m ∧ s = .associated ∨ ¬ RequestAccepted m ∧ s = .waitRetry) := by
  have hfe : queueFind ep.reqs m = some e := by
    cases hf : queueFind ep.reqs m with
    | none => exact absurd hs ((queueFind_none (reqs_kind h hm)).mp hf e he)
    | some x =>
      obtain ⟨h1, h2⟩ := queueFind_some hf
      rw [hu x h1 h2]
  exact assoc_evaluated h hr hm he hfe ha

/-- C61: what is missing: a Session Deletion Response from somebody else, with the right sequence number, associates the
CP peer. -/
theorem C61_any_response :
    peerObs 7 (exAssociate ++ [.rx exOther exDelResp []]) = some ([.associated, .waitAssoc, .disabled], true, [true], [], 0) := by
  set_option maxRecDepth 100000 in rfl

/-! ### C62: one attempt at a time -/

/-- C62: of each CP peer, at most one Association Setup Request is pending. -/
theorem C62_one {ep : Ep} (h : Reached ep) {fi id id'} (hp : ep.pending id)
    (hp' : ep.pending id') {r r' seq seq'} (ha : AssocReqOf fi r id seq ep.log) (ha' : AssocReqOf fi r' id' seq' ep.log) : id = id' := by
  obtain ⟨e, he, rfl⟩ := hp
  obtain ⟨e', he', rfl⟩ := hp'
  exact h.both.peer.one fi e he e' he' (assoc_entry h ha) (assoc_entry h ha') (by simp) (by simp)

/-- C62: while a request is pending, the CP peer is waiting for the response. -/
theorem C62_waiting {ep : Ep} (h : Reached ep) {fi id} (hp : ep.pending id)
    {r seq} (ha : AssocReqOf fi r id seq ep.log) : ∃ p, ep.peer? fi = some p ∧ p.state = .waitAssoc := by
  obtain ⟨e, he, rfl⟩ := hp
  obtain ⟨p, h1, h2, _⟩ := h.both.peer.pend fi e he (assoc_entry h ha) (by simp)
  exact ⟨p, h1, h2⟩

/-- C62: osmo_pfcp_cp_peer_associate() does nothing while the CP peer is waiting for a response, or is associated. -/
theorem C62_busy {ep : Ep} {fi p} (hp : ep.peer? fi = some p) (hs : p.state = .waitAssoc ∨ p.state = .associated) (io : Bool) :
    ep.associate fi io = .ok ep := by
  unfold Ep.associate
  rw [hp]
  dsimp only
  rw [if_neg]
  rcases hs with hs | hs <;> simp [hs]

/-- C62: and otherwise, it makes exactly one attempt, with an Association Setup Request, to the CP peer's address, that has the
endpoint's Node ID, Recovery Time Stamp and the next sequence number.  It remains pending if it could be sent. -/
theorem C62_attempt {ep : Ep} (h : Reached ep) (hn : InRange (.nodeId ep.cfg.nodeId)) {fi p} (hp : ep.peer? fi = some p)
    (hs : p.state = .disabled ∨ p.state = .waitRetry) (io : Bool) :
    ∃ ep' q, ep.associate fi io = .ok ep' ∧ q.h.type = 5 ∧ q.h.seq = (nextSeqNr ep.seq).toNat ∧ q.remote = p.remote ∧
      ep'.log = attemptLog ep fi p.remote q io ++ ep.log ∧
      (ep.sock = true ∧ io = true ∧ ¬ (ep.n1 = 0 ∨ ep.t1 = 0) → ep'.pending ep.nextId) := by
  obtain ⟨ep', q, h1, h2, h3, h4, _, _, h5, h6⟩ := assocStart_spec hp hs hn h.rts_lt io
  refine ⟨ep', q, ?_, h2, h3, h4, h5, h6⟩
  unfold Ep.associate
  rw [hp]
  dsimp only
  rw [if_pos hs, h1]

/-- Example: associate() again, while waiting. -/
example : peerObs 7 (exAssociate ++ [.app (.associate 7 true .done)]) = peerObs 7 exAssociate := by decide

/-! ### C63: retries -/

/-- "disabled" is not entered again. -/
theorem _root_.Verif.Follows.begun {l : List PState} (h : Follows taken l) {a b s s'} (hl : l = a ++ s' :: b) (hn : s' ≠ .disabled)
    (hs : l.head? = some s) : s ≠ .disabled := by
  subst hl
  rintro rfl
  cases a with
  | nil => simp at hs; exact hn hs
  | cons x a =>
    simp only [List.cons_append, List.head?_cons, Option.some.injEq] at hs
    subst hs
    have : ∀ y, (y, PState.disabled) ∉ taken := by intro y; cases y <;> decide
    cases a with
    | nil => exact this _ h.1
    | cons y a => exact this _ h.1

/-- C63: after osmo_pfcp_cp_peer_associate(), whatever happens, the CP peer is associated, or it has a pending Association
Setup Request, or its retry timer is running; unless an Association Setup Request of its was dropped by
osmo_pfcp_endpoint_close(), or T26 was once set to 0. -/
theorem C63_retried_partial {ep ep1 ep' : Ep} (h : Reached ep) (hn : InRange (.nodeId ep.cfg.nodeId)) {fi p0 io}
    (hp : ep.peer? fi = some p0) (ha : (Op.app (.associate fi io .done)).step ep = .ok ep1)
    (hl : Later ep1 ep') :
    ∃ p, ep'.peer? fi = some p ∧
      (p.isAssociated = true ∨
       (∃ id seq, ep'.pending id ∧ AssocReqOf fi p.remote id seq ep'.log) ∨
       (∃ d, p.timer = some d) ∨
       Excused fi ep'.log ∨ Event.configT26 0 ∈ ep'.log) := by
  have h1 : Reached ep1 := .op _ h ha
  have h' := hl.reached h1
  obtain ⟨l, hlog⟩ := hl.log h1
  have ha' : ep.associate fi io = .ok ep1 := by
    obtain ⟨epy, hy, hz⟩ := Res.bind_eq_ok ha
    cases hz
    exact hy
  have hst : ∃ a b s, peerStates fi ep1.log = a ++ s :: b ∧ s ≠ .disabled := by
    by_cases hne : p0.state = .disabled
    · obtain ⟨epx, q, hx, -, -, -, hlx, -⟩ := C62_attempt h hn hp (.inl hne) io
      rw [ha'] at hx
      cases hx
      have hm : Event.peer fi (.state .waitAssoc) ∈ ep1.log := by
        rw [hlx]; unfold attemptLog; simp
      obtain ⟨a, b, hab⟩ := List.append_of_mem hm
      obtain ⟨s, hs⟩ := peerStates_append fi a (.peer fi (.state .waitAssoc) :: b)
      refine ⟨s, peerStates fi b, .waitAssoc, ?_, by simp⟩
      rw [hab, hs]
      simp [peerStates]
    · have hst0 := C60_state h hp
      obtain ⟨l0, hl0⟩ : ∃ l, ep1.log = l ++ ep.log := (Later.op _ .refl ha).log h
      obtain ⟨s, hs⟩ := peerStates_append fi l0 ep.log
      cases hps : peerStates fi ep.log with
      | nil => rw [hps] at hst0; cases hst0
      | cons x b =>
        rw [hps] at hst0
        simp only [List.head?_cons, Option.some.injEq] at hst0
        exact ⟨s, b, x, by rw [hl0, hs, hps], by rw [hst0]; exact hne⟩
  obtain ⟨a, b, s0, hab, hs0⟩ := hst
  obtain ⟨s, hs⟩ := peerStates_append fi l ep1.log
  have hall : peerStates fi ep'.log = (s ++ a) ++ s0 :: b := by rw [hlog, hs, hab]; simp
  obtain ⟨p, hp'⟩ : ∃ p, ep'.peer? fi = some p := by
    cases hp' : ep'.peer? fi with
    | some p => exact ⟨p, rfl⟩
    | none =>
      exfalso
      rw [peerStates_absent (h'.both.peer.absent fi hp')] at hall
      have : s0 ∈ [PState.disabled] := by rw [hall]; simp
      exact hs0 (List.mem_singleton.mp this)
  refine ⟨p, hp', ?_⟩
  have hnd : p.state ≠ .disabled := (C60_taken h' fi).begun hall hs0 (C60_state h' hp')
  rcases h'.both.peer.known fi p hp' with hs | hs | hs | hs
  · exact absurd hs hnd
  · right
    rcases h'.both.peer.wait fi p hp' hs (by simp) with ⟨e, he, hae, _⟩ | hx
    · left
      obtain ⟨p2, h2, _, h3⟩ := h'.both.peer.pend fi e he hae (by simp)
      rw [hp'] at h2
      cases h2
      exact ⟨e.id, e.m.h.seq, ⟨e, he, rfl⟩, h3⟩
    · exact .inr (.inr (.inl hx))
  · rcases h'.both.peer.retry fi p hp' hs with hx | hx
    · exact .inr (.inr (.inl (Option.isSome_iff_exists.mp hx)))
    · exact .inr (.inr (.inr (.inr hx)))
  · left; simp [Peer.isAssociated, hs]

/-- C63: when the retry timer expires, there is another attempt. -/
theorem C63_another_attempt {ep : Ep} (h : Reached ep) (hn : InRange (.nodeId ep.cfg.nodeId)) {fi p d} (hp : ep.peer? fi = some p)
    (ht : p.timer = some d) (hd : d ≤ ep.now) (io : Bool) :
    ∃ ep' q, ep.peerTimer fi io = .ok ep' ∧ q.h.type = 5 ∧ q.h.seq = (nextSeqNr ep.seq).toNat ∧ q.remote = p.remote ∧
      ep'.log = attemptLog ep fi p.remote q io ++ ep.log ∧
      (ep.sock = true ∧ io = true ∧ ¬ (ep.n1 = 0 ∨ ep.t1 = 0) → ep'.pending ep.nextId) := by
  have hs := h.both.peer.timer fi p hp (by rw [ht]; rfl)
  obtain ⟨ep', q, h1, h2, h3, h4, _, _, h5, h6⟩ := assocStart_spec hp (.inr hs) hn h.rts_lt io
  refine ⟨ep', q, ?_, h2, h3, h4, h5, h6⟩
  rcases h.both.peer.peerTimer_eq fi io with hx | ⟨p', hp', _, _, hx⟩
  · exact absurd (by simp [ht, hd]) (hx.2 p hp)
  · rw [hp] at hp'
    cases hp'
    rw [hx, h1]

/-- Example: a CP peer whose request was rejected, and one whose request got no response. -/
example : peerObs 7 (exAssociate ++ [.advance 100, .reqTimer 0 true .done, .advance 100, .reqTimer 0 true .done,
      .advance 100, .reqTimer 0 true .done, .advance 15000, .peerTimer 7 true]) =
    some ([.waitAssoc, .waitRetry, .waitAssoc, .disabled], false, [], [1], 1) := by
  set_option maxRecDepth 100000 in rfl

/-- Whether the retry timer of a CP peer runs. -/
def retryTimer (fi : Nat) (ops : List Op) : Option Bool :=
  match exec ops exEp with
  | .ok ep => (ep.peer? fi).map fun p => p.timer.isSome
  | _ => none

/-- C63: what is missing: after osmo_pfcp_endpoint_close() while the response is awaited, the CP peer waits forever; also
after osmo_pfcp_endpoint_bind() and osmo_pfcp_cp_peer_associate(). -/
theorem C63_close_stuck (io : Bool) :
    let ops := exAssociate ++ [.app (.close (.bind true (.associate 7 io .done)))]
    peerObs 7 ops = some ([.waitAssoc, .disabled], false, [], [], 0) ∧ retryTimer 7 ops = some false := by
  cases io <;> exact ⟨by rfl, by rfl⟩

/-- C63: and with T26 = 0 there is no retry. -/
theorem C63_no_retry :
    let ops := [Op.app (.setT26 0 .done)] ++ exAssociate ++ [.rx exUpf exReject []]
    peerObs 7 ops = some ([.waitRetry, .waitAssoc, .disabled], false, [], [], 0) ∧ retryTimer 7 ops = some false := by
  refine ⟨?_, ?_⟩ <;> (set_option maxRecDepth 100000 in rfl)

/-! ### C64: loss of the association -/

/-- C64: assoc_cb(false) is never called: not when the association is lost, which the library does not notice. -/
theorem C64_never_false {ep : Ep} (h : Reached ep) (fi : Nat) : Event.peer fi (.assocCb false) ∉ ep.log := by
  intro hm
  obtain ⟨a, b, hab⟩ := List.append_of_mem hm
  cases (h.both.peer.cbok.only a fi false b hab).1

/-- C64: once associated, a CP peer remains associated, whatever happens. -/
theorem C64_stays_associated {ep ep' : Ep} (h : Reached ep) (hl : Later ep ep') {fi p} (hp : ep.peer? fi = some p)
    (ha : p.isAssociated = true) : ∃ p', ep'.peer? fi = some p' ∧ p'.isAssociated = true := by
  have h' := hl.reached h
  obtain ⟨l, hlog⟩ := hl.log h
  have ha : p.state = .associated := by simpa [Peer.isAssociated] using ha
  have hst := C60_state h hp
  cases hps : peerStates fi ep.log with
  | nil => rw [hps] at hst; cases hst
  | cons x b =>
    rw [hps] at hst
    simp only [List.head?_cons, Option.some.injEq] at hst
    obtain ⟨s, hs⟩ := peerStates_append fi l ep.log
    have hall : peerStates fi ep'.log = s ++ .associated :: b := by rw [hlog, hs, hps, hst, ha]
    have hs0 := (C60_taken h' fi).final hall
    subst hs0
    cases hp' : ep'.peer? fi with
    | none =>
      rw [peerStates_absent (h'.both.peer.absent fi hp')] at hall
      cases hall
    | some p' =>
      refine ⟨p', rfl, ?_⟩
      have := C60_state h' hp'
      rw [hall] at this
      simp only [List.nil_append, List.head?_cons, Option.some.injEq] at this
      simp [Peer.isAssociated, ← this]

/-- C64: for each CP peer, assoc_cb() is called at most once.  Not proved, because it is not true: that it is called when
the association is lost. -/
theorem C64_called_once_partial {ep : Ep} (h : Reached ep) {fi b b' x y z}
    (hl : ep.log = x ++ .peer fi (.assocCb b) :: y ++ .peer fi (.assocCb b') :: z) : False := by
  obtain ⟨-, l1, h1, -⟩ := h.both.peer.cbok.only x fi b (y ++ .peer fi (.assocCb b') :: z) (by rw [hl]; simp)
  obtain ⟨-, l2, h2, -⟩ := h.both.peer.cbok.only (x ++ .peer fi (.assocCb b) :: y) fi b' z hl
  cases y with
  | nil => simp at h1
  | cons w y =>
    simp only [List.cons_append, List.cons.injEq] at h1
    obtain ⟨rfl, -⟩ := h1
    subst h2
    obtain ⟨s1, e1⟩ := peerStates_append fi (y ++ [.peer fi (.assocCb b')]) (.peer fi (.state .associated) :: l2)
    obtain ⟨s2, e2⟩ := peerStates_append fi (x ++ [.peer fi (.assocCb b)])
      (.peer fi (.state .associated) :: (y ++ [.peer fi (.assocCb b')] ++ .peer fi (.state .associated) :: l2))
    have h3 := C60_taken h fi
    have h4 : ep.log = x ++ [.peer fi (.assocCb b)] ++
      (.peer fi (.state .associated) :: (y ++ [.peer fi (.assocCb b')] ++ .peer fi (.state .associated) :: l2)) := by
      rw [hl]; simp
    rw [h4, e2] at h3
    have h5 : peerStates fi (.peer fi (.state .associated) :: (y ++ [.peer fi (.assocCb b')] ++ .peer fi (.state .associated) :: l2)) =
        .associated :: (s1 ++ .associated :: peerStates fi l2) := by
      rw [peerStates, if_pos rfl, e1, peerStates, if_pos rfl]
    rw [h5] at h3
    have := h3.final (a := s2 ++ .associated :: s1) (b := peerStates fi l2) (by simp)
    simp at this

/-- C64: what is missing, in an example: the peer releases the association by an Association Release Request (type 9), and
then is restarted (a new Recovery Time Stamp); the CP peer is still associated, and its assoc_cb() is not called. -/
theorem C64_release_ignored :
    let rel : List UInt8 := [32, 9, 0, 13, 0, 0, 5, 0, 0, 60, 0, 5, 0, 10, 0, 0, 1]
    let hb : List UInt8 := [32, 1, 0, 12, 0, 0, 1, 0, 0, 96, 0, 4, 0, 0, 0, 99]
    peerObs 7 (exAssociate ++ [.rx exUpf exAccept [], .rx exUpf rel [], .rx exUpf hb []]) =
      some ([.associated, .waitAssoc, .disabled], true, [true], [], 0) := by
  set_option maxRecDepth 100000 in rfl

/-! ### C65: use counts -/

/-- C65: between events, each use count is the number of messages that hold it: those that were passed to
osmo_pfcp_endpoint_tx() and were not yet freed.  (Provided that no message has lost it by
osmo_pfcp_endpoint_invalidate_ctx().) -/
theorem C65_balance_partial {ep : Ep} (h : Reached ep) {u} (hu : Undisturbed u ep.log) : ep.use u = holders u ep.log := by
  simpa using h.both.use.eq hu

/-- C65, exactly: between events, each use count is the number of messages that hold it, as above, and one more for each message that
had taken it, and has lost it by osmo_pfcp_endpoint_invalidate_ctx() while it was queued, before it was freed. -/
theorem C65_exactly {ep : Ep} (h : Reached ep) (u : Nat × Nat) : ep.use u = holders u ep.log + lostUses u ep.log := by
  simpa using h.both.use.exact_ u

/-- C65: in any case, the use counts are at least those held by queued messages, so that releasing them does not fail. -/
theorem C65_held {ep : Ep} (h : Reached ep) (u : Nat × Nat) :
    ((ep.reqs ++ ep.resps).map fun e => e.m.ctx.uses.count u).sum ≤ ep.use u := by
  have := h.both.use.le u
  simp only [qsum, tsum, List.map_nil, List.sum_nil, List.count_nil] at this
  omega

/-- C65: when a CP peer is put into the context of a message, it takes a use count, unless there is a peer already. -/
theorem C65_once (p : Peer) (token : Nat) (c : Ctx) :
    (∀ fi, c.peerFi = some fi → p.setCtx token c = c) ∧
    (c.peerFi = none → c.peerUse = none → (p.setCtx token c).peerFi = some p.fi ∧
      ∀ u, (p.setCtx token c).uses.count u = c.uses.count u + if u = (p.fi, token) then 1 else 0) := by
  unfold Peer.setCtx
  refine ⟨fun fi hf => by rw [hf], fun hf hu => ?_⟩
  rw [hf]
  refine ⟨rfl, fun u => ?_⟩
  simp only [Ctx.uses, hu, Option.toList_some, Option.toList_none, List.append_nil, List.count_append, List.count_cons, List.count_nil]
  by_cases hx : u = (p.fi, token)
  · simp [hx]
  · have : ¬ (p.fi, token) = u := fun h => hx h.symm
    simp [hx, this]

/-- Example: while the request is pending the CP peer's use count is 1, and 0 when it got its response (see above).  A second
request of the application, in the context of the CP peer: -/
example : peerObs 7 (exAssociate ++ [.app (.tx { exReq with ctx := { peerFi := some 7, peerUse := some (7, tokenTx) } } true .done .done)]) =
    some ([.waitAssoc, .disabled], false, [], [1, 0], 2) := by decide
/-- Whether osmo_pfcp_endpoint_invalidate_ctx() was called. -/
def anyInvalidated (log : List Event) : Bool := log.any fun e => match e with | .invalidated _ => true | _ => false
theorem undisturbed_of {log : List Event} (h : anyInvalidated log = false) (u) : Undisturbed u log := by
  intro fi id n1 t1 m hm
  have h1 : anyInvalidated log = true := List.any_eq_true.mpr ⟨_, hm, rfl⟩
  rw [h] at h1
  cases h1
example : ∃ ep, exec exAssociate exEp = .ok ep ∧ Reached ep ∧ holders (7, tokenTx) ep.log = 1 ∧ Undisturbed (7, tokenTx) ep.log :=
  ⟨_, rfl, Reached.exec (ops := exAssociate) (ep := exEp) exEp_reached rfl, by decide, undisturbed_of (by decide) _⟩

/-- C65: what is missing: after osmo_pfcp_endpoint_invalidate_ctx() for the CP peer's FSM instance, the use count is not
given back, though no message is left (the assoc_cb() of the CP peer could be called still). -/
theorem C65_leak :
    peerObs 7 (exAssociate ++ [.app (.invalidate 7 (.close .done))]) = some ([.waitAssoc, .disabled], false, [], [], 1) := by decide

/-- ... which is just the one that was lost; after an invalidation between osmo_pfcp_endpoint_tx() and its failure, nothing is. -/
def usesObs (u : Nat × Nat) (ops : List Op) : Option (Nat × Nat × Nat) :=
  match exec ops exEp with
  | .ok ep => some (ep.use u, holders u ep.log, lostUses u ep.log)
  | _ => none
example : usesObs (7, tokenTx) (exAssociate ++ [.app (.invalidate 7 .done)]) = some (1, 1, 0) := by decide
example : usesObs (7, tokenTx) (exAssociate ++ [.app (.invalidate 7 (.close .done))]) = some (1, 0, 1) := by decide
example : usesObs (7, tokenTx) [.app (.bind true (.tx { exReq with ctx := { peerFi := some 7, peerUse := some (7, tokenTx), respCb := some (.app 1) } }
    false (.invalidate 7 .done) .done))] = some (0, 0, 0) := by decide

/-- C65: with N1 = 0 or T1 = 0, a sent message is never freed, and keeps the use count. -/
theorem C65_unqueued :
    peerObs 7 ([.app (.setTimers 0 100 1000 .done)] ++ exAssociate ++ [.app (.close .done)]) =
      some ([.waitRetry, .waitAssoc, .disabled], false, [], [], 1) := by decide

end Props

end Verif
