/-
What an endpoint does depends on the time that has passed, not on when it was.
-/
import Verif.EndpointRen

namespace Verif.Spec
open Verif

/-- The same timer, expiring later. -/
def laterEntry (d : Nat) (e : QEntry) : QEntry := { e with timer := e.timer.map (· + d) }

def laterPeer (d : Nat) (p : Peer) : Peer := { p with timer := p.timer.map (· + d) }

/-- The same, later. -/
def laterEvent (d : Nat) : Event → Event
  | .send why id remote o ok t => .send why id remote o ok (t + d)
  | .respCb id resp t => .respCb id resp (t + d)
  | e => e

/-- The same endpoint, `d` ms later: the clock, the timers that are running, and the times in the log differ by `d`, and nothing else. -/
def later (d : Nat) (ep : Ep) : Ep :=
  { ep with now := ep.now + d, reqs := ep.reqs.map (laterEntry d), resps := ep.resps.map (laterEntry d), peers := ep.peers.map (laterPeer d)
            log := ep.log.map (laterEvent d) }

/-- The same outcome, later. -/
def Res.later (d : Nat) : Res Ep → Res Ep
  | .ok ep => .ok (Spec.later d ep)
  | x => x

end Verif.Spec

namespace Verif
open Spec

/-- The second outcome is the first, later. -/
abbrev Sh (d : Nat) (x y : Res Ep) : Prop := RR (fun a b => b = later d a) x y

abbrev Sh2 {α : Type} (d : Nat) (x y : Res (Ep × α)) : Prop := RR (fun a b => b = (later d a.1, a.2)) x y

variable {d : Nat}

theorem Sh.bind {x y : Res Ep} {g h : Ep → Res Ep} (hx : Sh d x y) (hg : ∀ a, Sh d (g a) (h (later d a))) : Sh d (x.bind g) (y.bind h) :=
  RR.bind hx fun a b hab => by subst hab; exact hg a

theorem Sh2.bind {α : Type} {x y : Res (Ep × α)} {g h : Ep × α → Res Ep} (hx : Sh2 d x y) (hg : ∀ a c, Sh d (g (a, c)) (h (later d a, c))) :
    Sh d (x.bind g) (y.bind h) :=
  RR.bind hx fun a b hab => by subst hab; exact hg a.1 a.2

theorem later_note (c : Ep) (e : Event) : (later d c).note (laterEvent d e) = later d (c.note e) := rfl

theorem peer_shift (c : Ep) (fi) : (later d c).peer? fi = (c.peer? fi).map (laterPeer d) := by
  show (c.peers.map (laterPeer d)).find? _ = _
  rw [List.find?_map]
  rfl

theorem setPeer_shift (ps : List Peer) (p : Peer) : setPeer (ps.map (laterPeer d)) (laterPeer d p) = (setPeer ps p).map (laterPeer d) := by
  unfold setPeer
  rw [List.map_map, List.map_map]
  congr 1
  funext x
  show (if x.fi = p.fi then _ else _) = laterPeer d (if x.fi = p.fi then _ else _)
  split <;> rfl

theorem later_peers (c : Ep) (ps : List Peer) : ({ later d c with peers := ps.map (laterPeer d) } : Ep) = later d { c with peers := ps } := rfl

theorem releaseUses_shift : ∀ (us : List (Nat × Nat)) (c : Ep), Sh d (c.releaseUses us) ((later d c).releaseUses us)
  | [], c => rfl
  | u :: us, c => by
    unfold Ep.releaseUses
    exact RR.ite Iff.rfl trivial (releaseUses_shift us { c with use := fun x => if x = u then c.use x - 1 else c.use x })

theorem enter_shift (p : Peer) (new now t26) : (laterPeer d p).enter new (now + d) t26 = laterPeer d (p.enter new now t26) := by
  unfold Peer.enter laterPeer
  dsimp only
  split
  · rw [Option.map_some, Nat.add_right_comm]
  · rfl

theorem peerChg_shift (c : Ep) (fi st) : (later d c).peerChg fi st = later d (c.peerChg fi st) := by
  unfold Ep.peerChg
  rw [peer_shift]
  cases c.peer? fi with
  | none => rfl
  | some p =>
    dsimp only [Option.map_some]
    show (if p.state.permits st = true then (Ep.note { later d c with peers := setPeer (c.peers.map (laterPeer d)) ((laterPeer d p).enter st (c.now + d) c.t26) } _) else _) = _
    rw [enter_shift, setPeer_shift]
    split <;> rfl

theorem assocResp_shift (c : Ep) {ctx resp} {g g' : Ep → Res Ep} (hg : ∀ c, Sh d (g c) (g' (later d c))) :
    Sh d (c.assocResp ctx resp g) ((later d c).assocResp ctx resp g') := by
  unfold Ep.assocResp
  cases ctx.peerFi with
  | none => trivial
  | some fi =>
    dsimp only
    rw [peer_shift]
    cases c.peer? fi with
    | none => trivial
    | some p =>
      dsimp only [Option.map_some]
      cases resp with
      | none => exact peerChg_shift _ _ _
      | some m =>
        dsimp only
        refine RR.ite Iff.rfl (peerChg_shift _ _ _) (RR.ite Iff.rfl rfl (RR.ite Iff.rfl ?_ (peerChg_shift _ _ _)))
        rw [peerChg_shift]
        exact hg ((c.peerChg fi .associated).note (.peer fi (.assocCb true)))

theorem sendMsg_shift (c : Ep) {why id m io} : Sh2 d (c.sendMsg why id m io) ((later d c).sendMsg why id m io) := by
  unfold Ep.sendMsg
  cases m.encode with
  | ok o => exact RR.ite Iff.rfl rfl rfl
  | err e l => exact rfl
  | abort => trivial
  | ub => trivial
  | diverge => trivial

theorem using_shift (c : Ep) {id} {g g' : Ep → Res Ep} (hg : ∀ c, Sh d (g c) (g' (later d c))) : Sh d (c.using id g) ((later d c).using id g') := by
  unfold Ep.using
  exact Sh.bind (hg { c with busy := id :: c.busy }) fun a => rfl

theorem failCb_shift (c : Ep) {id m} {g g' : Ep → Res Ep} (hg : ∀ c, Sh d (g c) (g' (later d c))) : Sh d (c.failCb id m g) ((later d c).failCb id m g') := by
  unfold Ep.failCb
  exact RR.ite Iff.rfl (using_shift (c.note (.respCb id none c.now)) hg) rfl

theorem queueAdd_shift (c : Ep) {id m} {g g' : Ep → Res Ep} (hg : ∀ c, Sh d (g c) (g' (later d c))) :
    Sh d (c.queueAdd id m g) ((later d c).queueAdd id m g') := by
  unfold Ep.queueAdd
  refine RR.ite Iff.rfl (failCb_shift c hg) (RR.ite Iff.rfl ?_ ?_)
  · show _ = _
    unfold later
    simp only [List.map_append, List.map_cons, List.map_nil, laterEntry, Option.map_some, Nat.add_right_comm _ d]
  · show _ = _
    unfold later
    simp only [List.map_cons, laterEntry, Option.map_some, Nat.add_right_comm _ d]

theorem tx_shift (c : Ep) {m io} {g g' : Ep → Res Ep} (hg : ∀ c, Sh d (g c) (g' (later d c))) : Sh d (c.tx m io g) ((later d c).tx m io g') := by
  unfold Ep.tx
  have key : ∀ (c : Ep) (k : Nat) (m : PMsg), Sh d
      (((c.note (.passed k c.n1 c.t1 m)).sendMsg .tx k m io).bind fun x => match x with
        | (ep, m, rc) => match rc with
          | some e => (ep.failCb k m g).bind fun ep => (ep.releaseUses m.ctx.uses).bind fun ep =>
              .ok ((ep.note (.freed k)).note (.returned k (some e)))
          | none => (ep.queueAdd k m g).bind fun ep => .ok (ep.note (.returned k none)))
      ((((later d c).note (.passed k c.n1 c.t1 m)).sendMsg .tx k m io).bind fun x => match x with
        | (ep, m, rc) => match rc with
          | some e => (ep.failCb k m g').bind fun ep => (ep.releaseUses m.ctx.uses).bind fun ep =>
              .ok ((ep.note (.freed k)).note (.returned k (some e)))
          | none => (ep.queueAdd k m g').bind fun ep => .ok (ep.note (.returned k none))) := by
    intro c k m
    refine Sh2.bind (sendMsg_shift (c.note (.passed k c.n1 c.t1 m))) ?_
    rintro a1 ⟨m1, rc1⟩
    cases rc1 with
    | some e => exact Sh.bind (failCb_shift a1 hg) fun a2 => Sh.bind (releaseUses_shift _ a2) fun a3 => rfl
    | none => exact Sh.bind (queueAdd_shift a1 hg) fun a2 => rfl
  cases m.isResponse with
  | true => exact key { c with nextId := c.nextId + 1 } c.nextId (m.withNodeId c.cfg.nodeId)
  | false =>
    exact key (Ep.draw { c with nextId := c.nextId + 1 } m).1 c.nextId ((Ep.draw { c with nextId := c.nextId + 1 } m).2.withNodeId c.cfg.nodeId)

theorem txDirect_shift (c : Ep) {m io why} : Sh d (c.txDirect m io why) ((later d c).txDirect m io why) := by
  unfold Ep.txDirect
  exact Sh2.bind (sendMsg_shift { c with nextId := c.nextId + 1 }) fun _ _ => rfl

theorem txHeartbeat_shift (c : Ep) {remote io} : Sh d (c.txHeartbeat remote io) ((later d c).txHeartbeat remote io) := by
  unfold Ep.txHeartbeat
  exact txDirect_shift (c.draw (heartbeatReq remote c.rts)).1

theorem close_shift (c : Ep) : Sh d c.close (later d c).close := by
  unfold Ep.close
  have e1 : (later d c).reqs ++ (later d c).resps = (c.reqs ++ c.resps).map (laterEntry d) := List.map_append.symm
  have e2 : ((c.reqs ++ c.resps).map (laterEntry d)).any (fun e => (later d c).busy.contains e.id) = (c.reqs ++ c.resps).any fun e => c.busy.contains e.id := by
    rw [List.any_map]; rfl
  have e3 : (((c.reqs ++ c.resps).map (laterEntry d)).map fun e => e.m.ctx.uses).flatten = ((c.reqs ++ c.resps).map fun e => e.m.ctx.uses).flatten := by
    rw [List.map_map]; rfl
  rw [e1, e2, e3]
  refine RR.ite Iff.rfl trivial (Sh.bind (releaseUses_shift _ c) fun a => ?_)
  show _ = _
  unfold Ep.closed
  have e4 : (((later d a).reqs ++ (later d a).resps).map fun e => [Event.dropped e.id, Event.freed e.id]).flatten =
      (((a.reqs ++ a.resps).map fun e => [Event.dropped e.id, Event.freed e.id]).flatten).map (laterEvent d) := by
    show (((a.reqs.map (laterEntry d) ++ a.resps.map (laterEntry d))).map fun e => [Event.dropped e.id, Event.freed e.id]).flatten = _
    rw [← List.map_append]
    generalize a.reqs ++ a.resps = q
    induction q with
    | nil => rfl
    | cons x q ih =>
      simp only [List.map_cons, List.flatten_cons, ih, List.map_append]
      rfl
  rw [e4]
  unfold later
  simp only [List.map_append, List.map_reverse, List.map_nil]

theorem bind_shift (c : Ep) {ok} : Sh d (c.bind ok) ((later d c).bind ok) := by
  unfold Ep.bind
  exact Sh.bind (close_shift c) fun a => rfl

theorem invalidate_shift (c : Ep) {fi} : (later d c).invalidate fi = later d (c.invalidate fi) := by
  unfold Ep.invalidate Ep.dropCtx later Ep.note
  simp only [List.map_map]
  rfl

theorem txFailed_shift (l : List Event) : txFailed (l.map (laterEvent d)) = txFailed l := by
  cases l with
  | nil => rfl
  | cons e l =>
    cases e with
    | returned i rc => cases rc <;> rfl
    | _ => rfl

theorem assocStart_shift (c : Ep) {fi p io} : Sh d (c.assocStart fi p io) ((later d c).assocStart fi (laterPeer d p) io) := by
  unfold Ep.assocStart
  refine RR.ite Iff.rfl rfl ?_
  dsimp only
  rw [peerChg_shift]
  refine Sh.bind (tx_shift ((c.peerChg fi .waitAssoc).takeUses _) fun c => assocResp_shift c fun _ => rfl) fun a => ?_
  show _ = _
  have : txFailed (later d a).log = txFailed a.log := txFailed_shift _
  rw [this, peerChg_shift]
  split <;> rfl

theorem associate_shift (c : Ep) {fi io} : Sh d (c.associate fi io) ((later d c).associate fi io) := by
  unfold Ep.associate
  rw [peer_shift]
  cases c.peer? fi with
  | none => exact rfl
  | some p => exact RR.ite Iff.rfl (assocStart_shift c) rfl

theorem any_shift (t : Option Nat) (now : Nat) : (t.map (· + d)).any (fun x => x ≤ now + d) = t.any fun x => x ≤ now := by
  cases t with
  | none => rfl
  | some x =>
    show decide (x + d ≤ now + d) = decide (x ≤ now)
    exact decide_eq_decide.2 (by omega)

theorem peerTimer_shift (c : Ep) {fi io} : Sh d (c.peerTimer fi io) ((later d c).peerTimer fi io) := by
  unfold Ep.peerTimer
  rw [peer_shift]
  cases c.peer? fi with
  | none => exact rfl
  | some p =>
    have e1 : (laterPeer d p).timer.any (fun x => decide (x ≤ (later d c).now)) = p.timer.any fun x => decide (x ≤ c.now) := any_shift _ _
    have e2 : ({ later d c with peers := setPeer (later d c).peers { laterPeer d p with timer := none } } : Ep) =
        later d { c with peers := setPeer c.peers { p with timer := none } } := by
      have : setPeer (c.peers.map (laterPeer d)) (laterPeer d { p with timer := none }) = _ := setPeer_shift c.peers { p with timer := none }
      show ({ later d c with peers := setPeer (c.peers.map (laterPeer d)) (laterPeer d { p with timer := none }) } : Ep) = _
      rw [this]
      rfl
    dsimp only [Option.map_some]
    refine RR.ite (by rw [e1]) rfl (RR.ite Iff.rfl ?_ ?_)
    · have := assocStart_shift (d := d) { c with peers := setPeer c.peers { p with timer := none } } (fi := fi) (p := { p with timer := none }) (io := io)
      rw [← e2] at this
      exact this
    · show _ = _
      have e3 : (setPeer (c.peers.map (laterPeer d)) (laterPeer d { p with timer := none })).filter (fun p => p.fi ≠ fi) =
          ((setPeer c.peers { p with timer := none }).filter fun p => p.fi ≠ fi).map (laterPeer d) := by
        rw [setPeer_shift, List.filter_map]
        rfl
      show ({ later d c with peers := (setPeer (c.peers.map (laterPeer d)) (laterPeer d { p with timer := none })).filter fun p => p.fi ≠ fi } : Ep) = _
      rw [e3]
      rfl

theorem newPeer_shift (c : Ep) {fi remote} : (later d c).newPeer fi remote = later d (c.newPeer fi remote) := by
  unfold Ep.newPeer
  rw [peer_shift]
  cases c.peer? fi <;> rfl

theorem setAssocCb_shift (c : Ep) {fi cb} : (later d c).setAssocCb fi cb = later d (c.setAssocCb fi cb) := by
  unfold Ep.setAssocCb
  rw [peer_shift]
  cases c.peer? fi with
  | none => rfl
  | some p =>
    show Ep.note { later d c with peers := setPeer (c.peers.map (laterPeer d)) (laterPeer d { p with hasCb := cb }) } _ = _
    rw [setPeer_shift]
    rfl

theorem run_shift : ∀ (a : App) (c : Ep), Sh d (a.run c) (a.run (later d c))
  | .done, c => rfl
  | .tx m io onFail rest, c => by
    unfold App.run
    refine RR.ite Iff.rfl trivial (Sh.bind (tx_shift (c.takeUses _) fun c => run_shift onFail c) fun a => run_shift rest a)
  | .txData m io rest, c => by
    unfold App.run
    exact Sh.bind (txDirect_shift c) fun a => run_shift rest a
  | .heartbeat remote io rest, c => by
    unfold App.run
    exact Sh.bind (txHeartbeat_shift c) fun a => run_shift rest a
  | .invalidate fi rest, c => by
    unfold App.run
    rw [invalidate_shift]
    exact run_shift rest _
  | .setSeq s rest, c => by
    unfold App.run
    exact run_shift rest { c with seq := s, resets := c.resets + 1 }
  | .setTimers n1 t1 keepResp rest, c => by
    unfold App.run
    exact run_shift rest (Ep.note { c with n1, t1, keepResp } (.config n1 t1 keepResp))
  | .close rest, c => by
    unfold App.run
    exact Sh.bind (close_shift c) fun a => run_shift rest a
  | .bind ok rest, c => by
    unfold App.run
    exact Sh.bind (bind_shift c) fun a => run_shift rest a
  | .setT26 t26 rest, c => by
    unfold App.run
    exact run_shift rest (Ep.note { c with t26 } (.configT26 t26))
  | .newPeer fi remote rest, c => by
    unfold App.run
    rw [newPeer_shift]
    exact run_shift rest _
  | .setAssocCb fi cb rest, c => by
    unfold App.run
    rw [setAssocCb_shift]
    exact run_shift rest _
  | .associate fi io rest, c => by
    unfold App.run
    exact Sh.bind (associate_shift c) fun a => run_shift rest a

/-! ### Timers -/

theorem setEntry_shift (q : List QEntry) (e : QEntry) : setEntry (q.map (laterEntry d)) (laterEntry d e) = (setEntry q e).map (laterEntry d) := by
  unfold setEntry
  rw [List.map_map, List.map_map]
  congr 1
  funext x
  show (if x.id = e.id then _ else _) = laterEntry d (if x.id = e.id then _ else _)
  split <;> rfl

theorem setReq_shift (c : Ep) (e : QEntry) : ({ later d c with reqs := setEntry (later d c).reqs (laterEntry d e) } : Ep) =
    later d { c with reqs := setEntry c.reqs e } := by
  show ({ later d c with reqs := setEntry (c.reqs.map (laterEntry d)) (laterEntry d e) } : Ep) = _
  rw [setEntry_shift]
  rfl

theorem setResp_shift (c : Ep) (e : QEntry) : ({ later d c with resps := setEntry (later d c).resps (laterEntry d e) } : Ep) =
    later d { c with resps := setEntry c.resps e } := by
  show ({ later d c with resps := setEntry (c.resps.map (laterEntry d)) (laterEntry d e) } : Ep) = _
  rw [setEntry_shift]
  rfl

theorem find_shift (q : List QEntry) (id : Nat) : (q.map (laterEntry d)).find? (fun e => e.id = id) = (q.find? fun e => e.id = id).map (laterEntry d) := by
  rw [List.find?_map]
  rfl

theorem queueDel_shift (c : Ep) {id} : Sh d (c.queueDel id) ((later d c).queueDel id) := by
  unfold Ep.queueDel
  have e1 : ((((later d c).reqs ++ (later d c).resps).filter fun e => e.id = id).map fun e => e.m.ctx.uses) =
      (((c.reqs ++ c.resps).filter fun e => e.id = id).map fun e => e.m.ctx.uses) := by
    show (((c.reqs.map (laterEntry d) ++ c.resps.map (laterEntry d)).filter fun e => e.id = id).map fun e => e.m.ctx.uses) = _
    rw [← List.map_append, List.filter_map, List.map_map]
    rfl
  rw [e1]
  refine Sh.bind (releaseUses_shift _ c) fun a => ?_
  show ({ later d a with reqs := (a.reqs.map (laterEntry d)).filter fun e => e.id ≠ id
                         resps := (a.resps.map (laterEntry d)).filter fun e => e.id ≠ id
                         log := .freed id :: (later d a).log } : Ep) = _
  rw [List.filter_map, List.filter_map]
  rfl

theorem retrans_shift (c : Ep) {e io} : Sh2 d (c.retrans e io) ((later d c).retrans (laterEntry d e) io) := by
  unfold Ep.retrans
  refine RR.ite Iff.rfl rfl ?_
  refine RR.bind (sendMsg_shift c) ?_
  rintro ⟨a1, m1, rc1⟩ _ rfl
  cases rc1 with
  | some x =>
    show _ = _
    exact congrArg (fun x => (x, false)) (setReq_shift a1 { e with m := m1, n1 := e.n1 - 1 })
  | none =>
    show _ = _
    have := setReq_shift (d := d) a1 { e with m := m1, n1 := e.n1 - 1, timer := some (a1.now + a1.t1) }
    refine congrArg (fun x => (x, true)) (Eq.trans ?_ this)
    have e3 : ({ laterEntry d e with m := m1, n1 := (laterEntry d e).n1 - 1, timer := some ((later d a1).now + (later d a1).t1) } : QEntry) =
        laterEntry d { e with m := m1, n1 := e.n1 - 1, timer := some (a1.now + a1.t1) } := by
      show ({ e with m := m1, n1 := e.n1 - 1, timer := some (a1.now + d + a1.t1) } : QEntry) = { e with m := m1, n1 := e.n1 - 1, timer := some (a1.now + a1.t1 + d) }
      rw [Nat.add_right_comm]
    dsimp only at e3 ⊢
    rw [e3]

theorem reqTimer_shift (c : Ep) {id io} {g g' : Ep → Res Ep} (hg : ∀ c, Sh d (g c) (g' (later d c))) :
    Sh d (c.reqTimer id io g) ((later d c).reqTimer id io g') := by
  unfold Ep.reqTimer
  have hf : ((later d c).reqs.find? fun e => e.id = id) = (c.reqs.find? fun e => e.id = id).map (laterEntry d) := find_shift _ _
  rw [hf]
  cases c.reqs.find? fun e => e.id = id with
  | none => exact rfl
  | some e =>
    have e1 : (laterEntry d e).expired (later d c).now = e.expired c.now := any_shift _ _
    refine RR.ite (by rw [e1]) rfl (RR.ite Iff.rfl trivial ?_)
    have hr := retrans_shift (d := d) { c with reqs := setEntry c.reqs { e with timer := none } } (e := { e with timer := none }) (io := io)
    rw [← setReq_shift] at hr
    refine RR.bind (P := fun a b => b = (later d a.1, a.2)) hr ?_
    rintro ⟨a1, keep1⟩ _ rfl
    refine RR.ite Iff.rfl rfl ?_
    refine Sh.bind (RR.ite Iff.rfl ?_ rfl) fun a2 => ?_
    · exact using_shift (a1.note (.respCb id none a1.now)) fun c => RR.ite Iff.rfl (assocResp_shift c fun _ => rfl) (hg c)
    · have e2 : ((later d a2).reqs.any fun e => e.id = id) = a2.reqs.any fun e => e.id = id := by
        show (a2.reqs.map (laterEntry d)).any _ = _
        rw [List.any_map]; rfl
      exact RR.ite (by rw [e2]) (queueDel_shift a2) trivial

theorem respTimer_shift (c : Ep) {id} : Sh d (c.respTimer id) ((later d c).respTimer id) := by
  unfold Ep.respTimer
  have hf : ((later d c).resps.find? fun e => e.id = id) = (c.resps.find? fun e => e.id = id).map (laterEntry d) := find_shift _ _
  rw [hf]
  cases c.resps.find? fun e => e.id = id with
  | none => exact rfl
  | some e =>
    have e1 : (laterEntry d e).expired (later d c).now = e.expired c.now := any_shift _ _
    exact RR.ite (by rw [e1]) rfl (RR.ite Iff.rfl trivial (queueDel_shift c))

/-! ### Reception -/

theorem setCtx_shift (c : Ep) {k req r} : Sh d (c.setCtx k req r) ((later d c).setCtx k req r) := by
  unfold Ep.setCtx
  exact RR.ite Iff.rfl (run_shift _ ((c.note (.setCtx k req)).takeUses (c.rxUses r))) rfl

theorem dispatch_shift (c : Ep) {k req r} : Sh d (c.dispatch k req r) ((later d c).dispatch k req r) := by
  unfold Ep.dispatch
  exact run_shift _ (c.note (.dispatch k req))

theorem heartbeatReply_shift (c : Ep) {k m io} : Sh d (c.heartbeatReply k m io) ((later d c).heartbeatReply k m io) := by
  unfold Ep.heartbeatReply
  exact RR.ite Iff.rfl (Sh2.bind (sendMsg_shift { c with nextId := c.nextId + 1 }) fun _ _ => rfl) rfl

theorem handleDuplicate_shift (c : Ep) {k prev r} : Sh d (c.handleDuplicate k prev r) ((later d c).handleDuplicate k (laterEntry d prev) r) := by
  unfold Ep.handleDuplicate
  refine Sh.bind (using_shift c fun c => setCtx_shift c) fun a1 => ?_
  have hf : ((later d a1).resps.find? fun e => e.id = (laterEntry d prev).id) = (a1.resps.find? fun e => e.id = prev.id).map (laterEntry d) := find_shift _ _
  rw [hf]
  cases a1.resps.find? fun e => e.id = prev.id with
  | none => trivial
  | some e =>
    refine Sh2.bind (sendMsg_shift a1) ?_
    rintro a2 ⟨m1, rc1⟩
    exact setResp_shift a2 { e with m := m1 }

theorem respCall_shift (c : Ep) {m prev r} : Sh2 d (c.respCall m prev r) ((later d c).respCall m (laterEntry d prev) r) := by
  unfold Ep.respCall
  refine RR.ite Iff.rfl ?_ ?_
  · have hf : ((later d c).reqs.find? fun e => e.id = (laterEntry d prev).id) = (c.reqs.find? fun e => e.id = prev.id).map (laterEntry d) := find_shift _ _
    rw [hf]
    cases c.reqs.find? fun e => e.id = prev.id with
    | none => trivial
    | some e =>
      refine RR.bind (assocResp_shift c fun c => run_shift _ c) ?_
      rintro a _ rfl
      rfl
  · refine RR.bind (run_shift _ c) ?_
    rintro a _ rfl
    rfl

theorem handleResponse_shift (c : Ep) {k m prev r} : Sh d (c.handleResponse k m prev r) ((later d c).handleResponse k m (laterEntry d prev) r) := by
  unfold Ep.handleResponse
  refine Sh.bind (using_shift c fun c => ?_) fun a1 => ?_
  · refine Sh.bind (setCtx_shift c) fun a1 => RR.ite Iff.rfl ?_ (dispatch_shift a1)
    refine Sh2.bind (respCall_shift (a1.note (.respCb prev.id (some k) a1.now))) ?_
    intro a2 rc1
    exact RR.ite Iff.rfl rfl (dispatch_shift a2)
  · have e2 : ((later d a1).reqs.any fun e => e.id = (laterEntry d prev).id) = a1.reqs.any fun e => e.id = prev.id := by
      show (a1.reqs.map (laterEntry d)).any _ = _
      rw [List.any_map]; rfl
    exact RR.ite (by rw [e2]) (queueDel_shift a1) trivial

theorem handleMsg_shift (c : Ep) {k m r} : Sh d (c.handleMsg k m r) ((later d c).handleMsg k m r) := by
  unfold Ep.handleMsg
  have hq : queueFind (if m.isResponse then (later d c).reqs else (later d c).resps) m =
      (queueFind (if m.isResponse then c.reqs else c.resps) m).map (laterEntry d) := by
    have : (if m.isResponse then (later d c).reqs else (later d c).resps) = (if m.isResponse then c.reqs else c.resps).map (laterEntry d) := by split <;> rfl
    rw [this]
    unfold queueFind
    rw [List.find?_map]
    rfl
  rw [hq]
  cases queueFind (if m.isResponse then c.reqs else c.resps) m with
  | none => exact Sh.bind (setCtx_shift c) fun a => dispatch_shift a
  | some prev => exact RR.ite Iff.rfl (handleResponse_shift c) (handleDuplicate_shift c)

theorem handleRx_shift (c : Ep) {m r} : Sh d (c.handleRx m r) ((later d c).handleRx m r) := by
  unfold Ep.handleRx
  exact Sh.bind (heartbeatReply_shift (Ep.note { c with nextId := c.nextId + 1 } (.received c.nextId m))) fun a =>
    Sh.bind (handleMsg_shift a) fun a => releaseUses_shift _ a

theorem handleAll_shift {remote} : ∀ (l : List Rx) (rs : List React) (c : Ep), Sh d (c.handleAll remote l rs) ((later d c).handleAll remote l rs)
  | [], _, _ => rfl
  | ⟨_, none⟩ :: l, rs, c => handleAll_shift l rs c
  | ⟨_, some _⟩ :: l, rs, c => Sh.bind (handleRx_shift c) fun a => handleAll_shift l rs.tail a

theorem rxDatagram_shift (c : Ep) {remote o rs} : Sh d (c.rxDatagram remote o rs) ((later d c).rxDatagram remote o rs) := by
  unfold Ep.rxDatagram
  refine RR.ite Iff.rfl rfl (RR.ite Iff.rfl trivial ?_)
  cases rxBundle ((o.take allocSize).length + 1) (.received (o.take allocSize)) (List.replicate (allocSize - (o.take allocSize).length) 0) with
  | ok l => exact handleAll_shift l rs c
  | err e => exact rfl
  | abort => trivial
  | ub => trivial
  | diverge => trivial

/-! ### Histories -/

theorem op_shift (c : Ep) (op : Op) : Sh d (op.step c) (op.step (later d c)) := by
  cases op with
  | app a => exact run_shift a c
  | rx remote d rs => exact rxDatagram_shift c
  | advance ms =>
    show ({ later d c with now := c.now + d + ms } : Ep) = _
    rw [Nat.add_right_comm]
    rfl
  | reqTimer i io cb => exact reqTimer_shift c fun c => run_shift cb c
  | respTimer i => exact respTimer_shift c
  | peerTimer fi io => exact peerTimer_shift c

theorem exec_shift : ∀ (ops : List Op) (c : Ep), Sh d (exec ops c) (exec ops (later d c))
  | [], _ => rfl
  | op :: ops, c => Sh.bind (op_shift c op) fun a => exec_shift ops a

end Verif
