/-
C124: the order in which expired timers are handled does not matter.
-/
import Verif.PropsTouch

namespace Verif.Spec
open Verif

/-- The operation is that the timer of a queued message is handled (if that has expired): which message.  resp_cb() of the application does not use the endpoint. -/
def timerOf : Op → Option Nat
  | .reqTimer id _ .done => some id
  | .respTimer id => some id
  | _ => none

/-- These are timers of different messages. -/
def DifferentTimers (ops : List Op) : Prop := (∀ op ∈ ops, (timerOf op).isSome) ∧ (ops.map timerOf).Nodup

/-- The states `a` and `b`, both reached from `ep`, are the same but for the order in which things happened since then. -/
def SameUpToOrder (ep a b : Ep) : Prop := b = { a with log := b.log } ∧ ∃ la lb, a.log = la ++ ep.log ∧ b.log = lb ++ ep.log ∧ lb.Perm la

end Verif.Spec

namespace Verif.Props
open Verif Spec

/-! ### What handling a timer does -/

structure Upd where
  id : Nat
  keep : Option QEntry
  uses : List (Nat × Nat)
  fail : Option Nat
  fine : Prop
  pre : List Event
  post : List Event

def updQueue (id : Nat) (keep : Option QEntry) (q : List QEntry) : List QEntry := q.filterMap fun e => if e.id = id then keep else some e

def updResps (id : Nat) (keep : Option QEntry) (q : List QEntry) : List QEntry := q.filter fun e => decide (keep.isSome ∨ e.id ≠ id)

def retryPeers (fi now t26 : Nat) (ps : List Peer) : List Peer :=
  match ps.find? fun p => p.fi = fi with
  | none => ps
  | some p => if p.state.permits .waitRetry then setPeer ps (p.enter .waitRetry now t26) else ps

def retryLog (fi : Nat) (ps : List Peer) : List Event :=
  match ps.find? fun p => p.fi = fi with
  | none => []
  | some p => if p.state.permits .waitRetry then [.peer fi (.state .waitRetry)] else []

def failOf (m : PMsg) : Option Nat := if m.ctx.respCb = some Cb.assoc then m.ctx.peerFi else none

def failPeers (o : Option Nat) (now t26 : Nat) (ps : List Peer) : List Peer :=
  match o with
  | none => ps
  | some fi => retryPeers fi now t26 ps

def failLog (o : Option Nat) (ps : List Peer) : List Event :=
  match o with
  | none => []
  | some fi => retryLog fi ps

def Upd.apply (U : Upd) (ep : Ep) : Ep :=
  { ep with reqs := updQueue U.id U.keep ep.reqs, resps := updResps U.id U.keep ep.resps, use := fun u => ep.use u - U.uses.count u
            peers := failPeers U.fail ep.now ep.t26 ep.peers, log := U.post ++ (failLog U.fail ep.peers ++ (U.pre ++ ep.log)) }

def Upd.Cond (U : Upd) (ep : Ep) : Prop :=
  U.fine ∧ (∀ u, U.uses.count u ≤ ep.use u) ∧ ∀ fi, U.fail = some fi → (ep.peers.find? fun p => p.fi = fi).isSome

def updReq (e : QEntry) (io : Bool) (now t1 : Nat) : Upd :=
  if e.n1 ≠ 0 ∧ io = true then
    { id := e.id, keep := some { e with n1 := e.n1 - 1, timer := some (now + t1) }, uses := [], fail := none, fine := True
      pre := [.send .retrans e.id e.m.remote (e.m.encoded.getD []) true now], post := [] }
  else
    { id := e.id, keep := none, uses := e.m.ctx.uses, fail := failOf e.m
      fine := e.m.ctx.respCb = some Cb.assoc → e.m.ctx.peerFi.isSome
      pre := (if e.m.hasCb then [.respCb e.id none now] else []) ++ (if e.n1 = 0 then [] else [.send .retrans e.id e.m.remote (e.m.encoded.getD []) false now])
      post := [.freed e.id] }

def updResp (e : QEntry) : Upd :=
  { id := e.id, keep := none, uses := e.m.ctx.uses, fail := none, fine := True, pre := [], post := [.freed e.id] }

/-- What the operation amounts to. -/
def updOf (op : Op) (ep : Ep) : Option Upd :=
  match op with
  | .reqTimer id io _ => (look ep.reqs id).bind fun e => if e.expired ep.now then some (updReq e io ep.now ep.t1) else none
  | .respTimer id => (look ep.resps id).bind fun e => if e.expired ep.now then some (updResp e) else none
  | _ => none

theorem peerChg_retry (ep : Ep) (fi : Nat) :
    ep.peerChg fi .waitRetry = { ep with peers := retryPeers fi ep.now ep.t26 ep.peers, log := retryLog fi ep.peers ++ ep.log } := by
  unfold Ep.peerChg retryPeers retryLog Ep.peer?
  cases ep.peers.find? fun p => p.fi = fi with
  | none => rfl
  | some p =>
    dsimp only
    split <;> rfl

theorem setEntry_upd (q : List QEntry) (e : QEntry) : setEntry q e = updQueue e.id (some e) q := by
  unfold setEntry updQueue
  rw [← List.filterMap_eq_map]
  congr 1
  funext x
  show some (if x.id = e.id then _ else _) = _
  split <;> rfl

theorem filter_upd (q : List QEntry) (id : Nat) : (q.filter fun e => e.id ≠ id) = updQueue id none q := by
  unfold updQueue
  induction q with
  | nil => rfl
  | cons x q ih =>
    rw [List.filterMap_cons, List.filter_cons]
    by_cases h : x.id = id
    · rw [if_neg (by simp [h]), if_pos h]; exact ih
    · rw [if_pos (by simp [h]), if_neg h]; dsimp only; rw [ih]

theorem upd_upd (q : List QEntry) {id : Nat} {k : QEntry} (hk : k.id = id) (k' : Option QEntry) :
    updQueue id k' (updQueue id (some k) q) = updQueue id k' q := by
  unfold updQueue
  rw [List.filterMap_filterMap]
  congr 1
  funext x
  by_cases h : x.id = id
  · rw [if_pos h, if_pos h]; simp [hk]
  · rw [if_neg h, if_neg h]; simp [h]

theorem updResps_some (id : Nat) (k : QEntry) (q : List QEntry) : updResps id (some k) q = q := by
  unfold updResps
  rw [List.filter_eq_self]
  simp

theorem updResps_none (id : Nat) (q : List QEntry) : updResps id none q = q.filter fun e => e.id ≠ id := by
  unfold updResps
  congr 1
  funext x
  simp

/-- The uses of the message that is removed. -/
theorem uses_one {q : List QEntry} (hn : (q.map (·.id)).Nodup) {e : QEntry} (he : e ∈ q) :
    ((q.filter fun x => x.id = e.id).map fun e => e.m.ctx.uses).flatten = e.m.ctx.uses := by
  have : (q.filter fun x => x.id = e.id) = [e] := by
    induction q with
    | nil => cases he
    | cons x q ih =>
      rw [List.map_cons, List.nodup_cons] at hn
      rw [List.filter_cons]
      rcases List.mem_cons.1 he with rfl | he
      · rw [if_pos (by simp)]
        have : q.filter (fun x => decide (x.id = e.id)) = [] := by
          rw [List.filter_eq_nil_iff]
          intro x hx h
          exact hn.1 (List.mem_map.2 ⟨x, hx, by simpa using h⟩)
        rw [this]
      · rw [if_neg (by
          intro h
          exact hn.1 (List.mem_map.2 ⟨e, he, (by simpa using h : x.id = e.id).symm⟩))]
        exact ih hn.2 he
  rw [this]
  simp

theorem releaseUses_iff {us : List (Nat × Nat)} {ep : Ep} {g : Ep → Res Ep} {a : Ep} : (ep.releaseUses us).bind g = .ok a ↔
    (∀ u, us.count u ≤ ep.use u) ∧ g { ep with use := fun u => ep.use u - us.count u } = .ok a := by
  constructor
  · intro h
    obtain ⟨b, h1, h2⟩ := Res.bind_eq_ok h
    obtain ⟨rfl, h3⟩ := releaseUses_ok h1
    exact ⟨h3, h2⟩
  · rintro ⟨h1, h2⟩
    obtain ⟨b, hb⟩ := releaseUses_total h1
    obtain ⟨rfl, -⟩ := releaseUses_ok hb
    rw [hb]; exact h2

/-- osmo_pfcp_queue_del() of a message that is queued. -/
theorem queueDel_iff {ep a : Ep} {id us} (hu : (((ep.reqs ++ ep.resps).filter fun x => x.id = id).map fun e => e.m.ctx.uses).flatten = us) :
    ep.queueDel id = .ok a ↔ (∀ u, us.count u ≤ ep.use u) ∧
      a = { ep with reqs := updQueue id none ep.reqs, resps := updResps id none ep.resps, use := fun u => ep.use u - us.count u, log := .freed id :: ep.log } := by
  unfold Ep.queueDel
  rw [hu, releaseUses_iff, ← filter_upd, updResps_none]
  exact and_congr Iff.rfl ⟨fun h => by cases h; rfl, fun h => by rw [h]⟩

/-- The step is this update. -/
def Does (o : Option Upd) (ep a : Ep) : Prop :=
  match o with
  | none => a = ep
  | some U => U.Cond ep ∧ a = U.apply ep

theorem ok_iff {a b : Ep} : (Res.ok b = Res.ok a) ↔ a = b := ⟨fun h => by cases h; rfl, fun h => by rw [h]⟩

theorem respTimer_iff {ep a : Ep} (h : Inv (ep, {})) {id} : ep.respTimer id = .ok a ↔ Does (updOf (.respTimer id) ep) ep a := by
  unfold Ep.respTimer
  have hl : (ep.resps.find? fun e => e.id = id) = look ep.resps id := rfl
  rw [hl]
  cases hf : look ep.resps id with
  | none =>
    have hu : updOf (.respTimer id) ep = none := by unfold updOf; dsimp only; rw [hf]; rfl
    rw [hu]; exact ok_iff
  | some e =>
    dsimp only
    by_cases hx : e.expired ep.now = true
    · have hu : updOf (.respTimer id) ep = some (updResp e) := by unfold updOf; dsimp only; rw [hf, Option.bind_some, if_pos hx]
      rw [hu, if_neg (by simp [hx])]
      obtain ⟨_, _, m, o, _, hs, hr, -, -, -, -⟩ := h.response hf
      rw [if_neg (by rw [hs.isResponse, hr]; simp)]
      have hid : e.id = id := by simpa using List.find?_some hf
      have hm : e ∈ ep.resps := List.mem_of_find?_eq_some hf
      have hu := uses_one h.nodupBoth (List.mem_append_right ep.reqs hm)
      rw [hid] at hu
      rw [queueDel_iff hu]
      unfold Does Upd.Cond Upd.apply updResp
      dsimp only
      rw [hid]
      constructor
      · rintro ⟨h1, rfl⟩; exact ⟨⟨trivial, h1, nofun⟩, rfl⟩
      · rintro ⟨⟨-, h1, -⟩, rfl⟩; exact ⟨h1, rfl⟩
    · have hu : updOf (.respTimer id) ep = none := by unfold updOf; dsimp only; rw [hf, Option.bind_some, if_neg hx]
      rw [hu, if_pos hx]; exact ok_iff

theorem setEntry_map (q : List QEntry) (k : QEntry) : (setEntry q k).map (·.id) = q.map (·.id) := by
  unfold setEntry
  rw [List.map_map]
  congr 1
  funext x
  show (if x.id = k.id then k else x).id = x.id
  split
  · rename_i h; exact h.symm
  · rfl

/-- What pfcp_queue_sent_req_timer_cb() does when there will be no retransmission. -/
def Ep.giveUp (ep : Ep) (id : Nat) (m : PMsg) : Res Ep :=
  (if m.hasCb then
    (ep.note (.respCb id none ep.now)).using id fun ep => if m.ctx.respCb = some Cb.assoc then ep.assocResp m.ctx none .ok else App.done.run ep
  else .ok ep).bind fun ep => if ep.reqs.any fun e => e.id = id then ep.queueDel id else .ub

theorem using_iff {ep a : Ep} {id} {f : Ep → Res Ep} {g : Ep → Res Ep} {b : Ep} {C : Prop} (hf : ∀ c, f { ep with busy := id :: ep.busy } = .ok c ↔ C ∧ c = b) :
    (ep.using id f).bind g = .ok a ↔ C ∧ g { b with busy := ep.busy } = .ok a := by
  unfold Ep.using
  constructor
  · intro h
    obtain ⟨c, h1, h2⟩ := Res.bind_eq_ok h
    obtain ⟨d, h3, h4⟩ := Res.bind_eq_ok h1
    obtain ⟨hc, rfl⟩ := (hf d).1 h3
    cases h4
    exact ⟨hc, h2⟩
  · rintro ⟨hc, h⟩
    rw [(hf b).2 ⟨hc, rfl⟩]
    exact h

theorem giveUp_iff {ep a : Ep} {id m} (hk : (ep.reqs.any fun e => e.id = id) = true)
    (hu : (((ep.reqs ++ ep.resps).filter fun x => x.id = id).map fun e => e.m.ctx.uses).flatten = m.ctx.uses) :
    Ep.giveUp ep id m = .ok a ↔ (m.ctx.respCb = some Cb.assoc → m.ctx.peerFi.isSome) ∧
      (∀ fi, failOf m = some fi → (ep.peers.find? fun p => p.fi = fi).isSome) ∧ (∀ u, m.ctx.uses.count u ≤ ep.use u) ∧
      a = { ep with reqs := updQueue id none ep.reqs, resps := updResps id none ep.resps, use := fun u => ep.use u - m.ctx.uses.count u
                    peers := failPeers (failOf m) ep.now ep.t26 ep.peers
                    log := .freed id :: (failLog (failOf m) ep.peers ++ ((if m.hasCb then [.respCb id none ep.now] else []) ++ ep.log)) } := by
  unfold Ep.giveUp failOf
  by_cases hc : m.hasCb = true
  · rw [if_pos hc]
    by_cases ha : m.ctx.respCb = some Cb.assoc
    · cases hp : m.ctx.peerFi with
      | none =>
        constructor
        · intro h
          rw [using_iff (C := False) (b := ep)] at h
          · exact h.1.elim
          · intro c; rw [if_pos ha]; unfold Ep.assocResp; rw [hp]; exact ⟨nofun, fun h => h.1.elim⟩
        · rintro ⟨h, -⟩; cases h ha
      | some fi =>
        cases hq : ep.peers.find? fun p => p.fi = fi with
        | none =>
          constructor
          · intro h
            rw [using_iff (C := False) (b := ep)] at h
            · exact h.1.elim
            · intro c; rw [if_pos ha]; unfold Ep.assocResp Ep.peer?; rw [hp]; dsimp only
              unfold Ep.note; dsimp only; rw [hq]; exact ⟨nofun, fun h => h.1.elim⟩
          · rintro ⟨-, h, -⟩
            have h := h fi (by rw [if_pos ha])
            rw [hq] at h
            cases h
        | some p =>
          rw [using_iff (C := True)
            (b := { ep with busy := id :: ep.busy, peers := retryPeers fi ep.now ep.t26 ep.peers, log := retryLog fi ep.peers ++ (.respCb id none ep.now :: ep.log) })]
          · rw [if_pos hk, if_pos ha, if_pos hc]
            refine Iff.trans (and_congr Iff.rfl (by exact queueDel_iff hu)) ?_
            unfold failPeers failLog
            dsimp only
            constructor
            · rintro ⟨-, h1, rfl⟩
              exact ⟨fun _ => rfl, fun _ h => by cases h; rw [hq]; rfl, h1, rfl⟩
            · rintro ⟨-, -, h1, rfl⟩
              exact ⟨trivial, h1, rfl⟩
          · intro c
            rw [if_pos ha]; unfold Ep.assocResp Ep.peer?; rw [hp]; dsimp only
            unfold Ep.note; dsimp only; rw [hq]; dsimp only
            rw [peerChg_retry, ok_iff]
            exact (true_and _).symm.to_iff
    · rw [using_iff (C := True) (b := { ep with busy := id :: ep.busy, log := .respCb id none ep.now :: ep.log })]
      · rw [if_pos hk, if_neg ha, if_pos hc]
        refine Iff.trans (and_congr Iff.rfl (by exact queueDel_iff hu)) ?_
        constructor
        · rintro ⟨-, h1, rfl⟩
          exact ⟨fun h => (ha h).elim, nofun, h1, rfl⟩
        · rintro ⟨-, -, h1, rfl⟩
          exact ⟨trivial, h1, rfl⟩
      · intro c
        rw [if_neg ha]
        exact ok_iff.trans (true_and _).symm.to_iff
  · have ha : ¬ m.ctx.respCb = some Cb.assoc := by
      intro h; apply hc; unfold PMsg.hasCb; rw [h]; rfl
    rw [if_neg hc, if_neg ha, if_neg hc]
    show (if ep.reqs.any fun e => e.id = id then ep.queueDel id else .ub) = .ok a ↔ _
    rw [if_pos hk, queueDel_iff hu]
    constructor
    · rintro ⟨h1, rfl⟩
      exact ⟨fun h => (ha h).elim, nofun, h1, rfl⟩
    · rintro ⟨-, -, h1, rfl⟩
      exact ⟨h1, rfl⟩

theorem reqTimer_iff {ep a : Ep} (h : Inv (ep, {})) {id io} : ep.reqTimer id io App.done.run = .ok a ↔ Does (updOf (.reqTimer id io .done) ep) ep a := by
  unfold Ep.reqTimer
  have hl : (ep.reqs.find? fun e => e.id = id) = look ep.reqs id := rfl
  rw [hl]
  cases hf : look ep.reqs id with
  | none =>
    have hu : updOf (.reqTimer id io .done) ep = none := by unfold updOf; dsimp only; rw [hf]; rfl
    rw [hu]; exact ok_iff
  | some e =>
    dsimp only
    by_cases hx : e.expired ep.now = true
    · have hu : updOf (.reqTimer id io .done) ep = some (updReq e io ep.now ep.t1) := by unfold updOf; dsimp only; rw [hf, Option.bind_some, if_pos hx]
      rw [hu, if_neg (by simp [hx])]
      obtain ⟨_, _, m, o, _, hs, hr, -, -, -, -⟩ := h.request hf rfl
      rw [if_neg (by rw [hs.isResponse, hr]; simp)]
      have hid : e.id = id := by simpa using List.find?_some hf
      subst hid
      have hm : e ∈ ep.reqs := List.mem_of_find?_eq_some hf
      have hsock : ep.sock = true := h.sock (.inl fun hn => by rw [hn] at hm; cases hm)
      have henc : e.m.encode = .ok o := by unfold PMsg.encode; rw [hs.encoded]
      have hem : { e.m with encoded := some o } = e.m := by rw [← hs.encoded]
      have hget : e.m.encoded.getD [] = o := by rw [hs.encoded]; rfl
      have key : ∀ (k : QEntry), k.id = e.id → k.m.ctx = e.m.ctx → ∀ l : List Event,
          (({ ep with reqs := updQueue e.id (some k) ep.reqs, log := l } : Ep).reqs.any fun x => x.id = e.id) = true ∧
          (((({ ep with reqs := updQueue e.id (some k) ep.reqs, log := l } : Ep).reqs ++ ({ ep with reqs := updQueue e.id (some k) ep.reqs, log := l } : Ep).resps).filter
            fun x => x.id = e.id).map fun e => e.m.ctx.uses).flatten = e.m.ctx.uses := by
        intro k hk hc l
        dsimp only
        have hkm : k ∈ updQueue e.id (some k) ep.reqs := by
          unfold updQueue
          rw [List.mem_filterMap]
          exact ⟨e, hm, by rw [if_pos rfl]⟩
        refine ⟨List.any_eq_true.2 ⟨k, hkm, by simp [hk]⟩, ?_⟩
        rw [← hc]
        have := uses_one (q := updQueue e.id (some k) ep.reqs ++ ep.resps) (e := k) ?_ (List.mem_append_left _ hkm)
        · rw [hk] at this; exact this
        · rw [← hk, ← setEntry_upd, List.map_append, setEntry_ids, ← List.map_append]; exact h.nodupBoth
      by_cases hn : e.n1 = 0
      · have hu2 : updReq e io ep.now ep.t1 = { id := e.id, keep := none, uses := e.m.ctx.uses, fail := failOf e.m, fine := e.m.ctx.respCb = some Cb.assoc → e.m.ctx.peerFi.isSome, pre := if e.m.hasCb then [.respCb e.id none ep.now] else [], post := [.freed e.id] } := by
          unfold updReq
          rw [if_neg (by simp [hn]), if_pos hn, List.append_nil]
        rw [hu2]
        unfold Ep.retrans
        rw [if_pos hn]
        have hk := key { e with timer := none } rfl rfl ep.log
        have hg := giveUp_iff (a := a) hk.1 hk.2
        rw [setEntry_upd]
        dsimp only [Res.bind]
        rw [if_neg (by simp)]
        unfold Ep.giveUp at hg
        dsimp only [Res.bind] at hg
        refine Iff.trans hg ?_
        unfold Does Upd.Cond Upd.apply
        dsimp only
        rw [upd_upd (id := e.id) (k := { e with timer := none }) _ rfl]
        constructor
        · rintro ⟨h1, h2, h3, rfl⟩; exact ⟨⟨h1, h3, h2⟩, rfl⟩
        · rintro ⟨⟨h1, h3, h2⟩, rfl⟩; exact ⟨h1, h2, h3, rfl⟩
      · unfold Ep.retrans
        rw [if_neg hn]
        unfold Ep.sendMsg
        dsimp only
        rw [henc]
        dsimp only
        rw [if_pos hsock]
        cases io with
        | true =>
          have hu2 : updReq e true ep.now ep.t1 = { id := e.id, keep := some { e with n1 := e.n1 - 1, timer := some (ep.now + ep.t1) }, uses := [], fail := none, fine := True, pre := [.send .retrans e.id e.m.remote (e.m.encoded.getD []) true ep.now], post := [] } := by
            unfold updReq
            rw [if_pos ⟨hn, rfl⟩]
          rw [hu2, hget]
          unfold Ep.note
          dsimp only
          rw [if_pos rfl]
          dsimp only [Res.bind]
          rw [if_pos rfl, hem, setEntry_upd, setEntry_upd]
          dsimp only
          rw [upd_upd (id := e.id) (k := { e with timer := none }) _ rfl, ok_iff]
          unfold Does Upd.Cond Upd.apply
          dsimp only
          rw [updResps_some]
          constructor
          · rintro rfl; exact ⟨⟨trivial, by simp, nofun⟩, rfl⟩
          · rintro ⟨-, rfl⟩; rfl
        | false =>
          have hu2 : updReq e false ep.now ep.t1 = { id := e.id, keep := none, uses := e.m.ctx.uses, fail := failOf e.m, fine := e.m.ctx.respCb = some Cb.assoc → e.m.ctx.peerFi.isSome, pre := (if e.m.hasCb then [.respCb e.id none ep.now] else []) ++ [.send .retrans e.id e.m.remote (e.m.encoded.getD []) false ep.now], post := [.freed e.id] } := by
            unfold updReq
            rw [if_neg (by simp), if_neg hn]
          rw [hu2, hget]
          unfold Ep.note
          dsimp only
          rw [if_neg (by simp)]
          dsimp only [Res.bind]
          rw [hem, setEntry_upd, setEntry_upd]
          dsimp only
          rw [upd_upd (id := e.id) (k := { e with timer := none }) _ rfl, if_neg (by simp)]
          have hk := key { e with timer := none, n1 := e.n1 - 1 } rfl rfl (.send .retrans e.id e.m.remote o false ep.now :: ep.log)
          have hg := giveUp_iff (a := a) hk.1 hk.2
          unfold Ep.giveUp at hg
          dsimp only [Res.bind] at hg
          refine Iff.trans hg ?_
          unfold Does Upd.Cond Upd.apply
          dsimp only
          rw [upd_upd (id := e.id) (k := { e with timer := none, n1 := e.n1 - 1 }) _ rfl]
          constructor
          · rintro ⟨h1, h2, h3, rfl⟩; exact ⟨⟨h1, h3, h2⟩, by rw [List.append_assoc]; rfl⟩
          · rintro ⟨⟨h1, h3, h2⟩, rfl⟩; exact ⟨h1, h2, h3, by rw [List.append_assoc]; rfl⟩
    · have hu : updOf (.reqTimer id io .done) ep = none := by unfold updOf; dsimp only; rw [hf, Option.bind_some, if_neg hx]
      rw [hu, if_pos hx]; exact ok_iff

theorem timer_iff {op : Op} {i} (ho : timerOf op = some i) {ep a : Ep} (h : Inv (ep, {})) : op.step ep = .ok a ↔ Does (updOf op ep) ep a := by
  cases op with
  | reqTimer id io f =>
    cases f with
    | done => exact reqTimer_iff h
    | _ => cases ho
  | respTimer id => exact respTimer_iff h
  | _ => cases ho

/-- The update concerns message i. -/
structure Upd.Of (U : Upd) (i : Nat) : Prop where
  isId : U.id = i
  keep : ∀ k, U.keep = some k → k.id = i

theorem updOf_of {op : Op} {i} (ho : timerOf op = some i) {ep : Ep} {U} (h : updOf op ep = some U) : U.Of i := by
  cases op with
  | reqTimer id io f =>
    cases f with
    | done =>
      cases ho
      unfold updOf at h
      dsimp only at h
      obtain ⟨e, he, h⟩ := Option.bind_eq_some_iff.1 h
      have hid : e.id = i := by simpa using List.find?_some he
      split at h
      · cases h
        unfold updReq
        split
        · exact ⟨hid, fun k hk => by cases hk; exact hid⟩
        · exact ⟨hid, fun _ hk => by cases hk⟩
      · cases h
    | _ => cases ho
  | respTimer id =>
    cases ho
    unfold updOf at h
    dsimp only at h
    obtain ⟨e, he, h⟩ := Option.bind_eq_some_iff.1 h
    have hid : e.id = i := by simpa using List.find?_some he
    split at h
    · cases h; exact ⟨hid, fun _ hk => by cases hk⟩
    · cases h
  | _ => cases ho

theorem look_updQueue {id keep j} (hk : ∀ k, keep = some k → k.id = id) (hj : j ≠ id) : ∀ q, look (updQueue id keep q) j = look q j
  | [] => rfl
  | x :: q => by
    have ih := look_updQueue hk hj q
    unfold look updQueue at ih ⊢
    rw [List.filterMap_cons, List.find?_cons]
    by_cases hx : x.id = id
    · rw [if_pos hx]
      have hd : decide (x.id = j) = false := by simp [hx, Ne.symm hj]
      cases hkeep : keep with
      | none => rw [hkeep] at ih; dsimp only; rw [hd]; exact ih
      | some k =>
        rw [hkeep] at ih
        have hd' : decide (k.id = j) = false := by simp [hk k hkeep, Ne.symm hj]
        dsimp only
        rw [hd, List.find?_cons, hd']
        exact ih
    · rw [if_neg hx]
      dsimp only
      rw [List.find?_cons, ih]

theorem look_updResps {id keep j} (hj : j ≠ id) : ∀ q, look (updResps id keep q) j = look q j
  | [] => rfl
  | x :: q => by
    have ih := look_updResps (keep := keep) hj q
    unfold look updResps at ih ⊢
    rw [List.filter_cons, List.find?_cons]
    split
    · rw [List.find?_cons, ih]
    · rename_i h
      have hx : x.id = id := by
        simp only [decide_eq_true_eq, not_or, Decidable.not_not] at h; exact h.2
      have hd : decide (x.id = j) = false := by simp [hx, Ne.symm hj]
      rw [hd]; exact ih

theorem updOf_other {op : Op} {j} (ho : timerOf op = some j) {U : Upd} {i} (hU : U.Of i) (hij : j ≠ i) (ep : Ep) : updOf op (U.apply ep) = updOf op ep := by
  have h1 : look (U.apply ep).reqs j = look ep.reqs j := look_updQueue (by rw [hU.isId]; exact hU.keep) (by rw [hU.isId]; exact hij) _
  have h2 : look (U.apply ep).resps j = look ep.resps j := look_updResps (by rw [hU.isId]; exact hij) _
  cases op with
  | reqTimer id io f =>
    cases f with
    | done => cases ho; unfold updOf; dsimp only; rw [h1]; rfl
    | _ => cases ho
  | respTimer id => cases ho; unfold updOf; dsimp only; rw [h2]; rfl
  | _ => cases ho

theorem updQueue_comm {i j k l} (hk : ∀ e, k = some e → e.id = i) (hl : ∀ e, l = some e → e.id = j) (hij : i ≠ j) (q : List QEntry) :
    updQueue i k (updQueue j l q) = updQueue j l (updQueue i k q) := by
  unfold updQueue
  rw [List.filterMap_filterMap, List.filterMap_filterMap]
  congr 1
  funext x
  by_cases h1 : x.id = i
  · rw [if_pos h1, if_neg (by rw [h1]; exact hij), Option.bind_some, if_pos h1]
    cases hk' : k with
    | none => rfl
    | some e => rw [Option.bind_some, if_neg (by rw [hk e hk']; exact hij)]
  · by_cases h2 : x.id = j
    · rw [if_neg h1, if_pos h2, Option.bind_some, if_pos h2]
      cases hl' : l with
      | none => rfl
      | some e => rw [Option.bind_some, if_neg (by rw [hl e hl']; exact hij.symm)]
    · rw [if_neg h1, if_neg h2, Option.bind_some, Option.bind_some, if_neg h1, if_neg h2]

theorem updResps_comm {i j k l} (q : List QEntry) : updResps i k (updResps j l q) = updResps j l (updResps i k q) := by
  unfold updResps
  rw [List.filter_filter, List.filter_filter]
  congr 1
  funext x
  exact Bool.and_comm _ _

theorem find_setPeer_ne {ps : List Peer} {p : Peer} {fi} (h : p.fi ≠ fi) : ((setPeer ps p).find? fun x => x.fi = fi) = ps.find? fun x => x.fi = fi := by
  unfold setPeer
  induction ps with
  | nil => rfl
  | cons x ps ih =>
    rw [List.map_cons, List.find?_cons, List.find?_cons, ih]
    by_cases hx : x.fi = p.fi
    · have h1 : decide ((if x.fi = p.fi then p else x).fi = fi) = false := by rw [if_pos hx]; simp [h]
      have h2 : decide (x.fi = fi) = false := by simp [hx, h]
      rw [h1, h2]
    · rw [if_neg hx]

theorem setPeer_comm {ps : List Peer} {p q : Peer} (h : p.fi ≠ q.fi) : setPeer (setPeer ps p) q = setPeer (setPeer ps q) p := by
  unfold setPeer
  rw [List.map_map, List.map_map]
  congr 1
  funext x
  show (if (if x.fi = p.fi then p else x).fi = q.fi then q else (if x.fi = p.fi then p else x)) = (if (if x.fi = q.fi then q else x).fi = p.fi then p else (if x.fi = q.fi then q else x))
  by_cases h1 : x.fi = p.fi
  · have hn : ¬ x.fi = q.fi := by rw [h1]; exact h
    rw [if_pos h1, if_neg h, if_neg hn, if_pos h1]
  · rw [if_neg h1]
    by_cases h2 : x.fi = q.fi
    · rw [if_pos h2, if_neg (Ne.symm h)]
    · rw [if_neg h2, if_neg h1]

theorem enter_fi' (p : Peer) (s now t26) : (p.enter s now t26).fi = p.fi := rfl

theorem retry_find {fi fj now t26} {ps : List Peer} (h : fi ≠ fj) : ((retryPeers fi now t26 ps).find? fun p => p.fi = fj) = ps.find? fun p => p.fi = fj := by
  unfold retryPeers
  cases hf : ps.find? fun p => p.fi = fi with
  | none => rfl
  | some p =>
    dsimp only
    split
    · have hp : p.fi = fi := by simpa using List.find?_some hf
      exact find_setPeer_ne (by rw [enter_fi', hp]; exact h)
    · rfl

theorem retry_isSome {fi fj now t26} {ps : List Peer} : ((retryPeers fi now t26 ps).find? fun p => p.fi = fj).isSome = (ps.find? fun p => p.fi = fj).isSome := by
  have hset : ∀ p : Peer, ((setPeer ps p).find? fun x => x.fi = fj).isSome = (ps.find? fun x => x.fi = fj).isSome := by
    intro p
    rw [find_setPeer]
    split
    · rw [Option.isSome_map]
    · rfl
  unfold retryPeers
  cases ps.find? fun p => p.fi = fi with
  | none => rfl
  | some p =>
    dsimp only
    split
    · exact hset _
    · rfl

theorem retryLog_other {fi fj now t26} {ps : List Peer} (h : fi ≠ fj) : retryLog fj (retryPeers fi now t26 ps) = retryLog fj ps := by
  unfold retryLog
  rw [retry_find h]

theorem retryPeers_comm {fi fj now t26} {ps : List Peer} (h : fi ≠ fj) :
    retryPeers fi now t26 (retryPeers fj now t26 ps) = retryPeers fj now t26 (retryPeers fi now t26 ps) := by
  have h1 := retry_find (now := now) (t26 := t26) (ps := ps) h
  have h2 := retry_find (now := now) (t26 := t26) (ps := ps) h.symm
  unfold retryPeers at h1 h2 ⊢
  rw [h1, h2]
  cases hi : ps.find? fun p => p.fi = fi with
  | none => rfl
  | some p =>
    cases hj : ps.find? fun p => p.fi = fj with
    | none => rfl
    | some q =>
      dsimp only
      have hp : p.fi = fi := by simpa using List.find?_some hi
      have hq : q.fi = fj := by simpa using List.find?_some hj
      split
      · split
        · exact setPeer_comm (by rw [enter_fi', enter_fi', hp, hq]; exact h.symm)
        · rfl
      · rfl

theorem failPeers_comm (a b now t26) (ps : List Peer) : failPeers a now t26 (failPeers b now t26 ps) = failPeers b now t26 (failPeers a now t26 ps) := by
  cases a with
  | none => rfl
  | some fi =>
    cases b with
    | none => rfl
    | some fj =>
      by_cases h : fi = fj
      · rw [h]
      · exact retryPeers_comm h

theorem failLog_comm (a b now t26) (ps : List Peer) :
    (failLog a (failPeers b now t26 ps) ++ failLog b ps).Perm (failLog b (failPeers a now t26 ps) ++ failLog a ps) := by
  cases a with
  | none => cases b <;> exact (List.append_nil _).symm ▸ List.Perm.refl _
  | some fi =>
    cases b with
    | none => exact (List.append_nil _).symm ▸ List.Perm.refl _
    | some fj =>
      by_cases h : fi = fj
      · rw [h]
      · show (retryLog fi (retryPeers fj now t26 ps) ++ retryLog fj ps).Perm (retryLog fj (retryPeers fi now t26 ps) ++ retryLog fi ps)
        rw [retryLog_other h, retryLog_other (Ne.symm h)]
        exact List.perm_append_comm

theorem failPeers_isSome (a now t26) (ps : List Peer) (fi) : ((failPeers a now t26 ps).find? fun p => p.fi = fi).isSome = (ps.find? fun p => p.fi = fi).isSome := by
  cases a with
  | none => rfl
  | some fj => exact retry_isSome

/-! ### Two orders -/

structure Sim (a b : Ep) : Prop where
  eq : b = { a with log := b.log }
  perm : b.log.Perm a.log

theorem Sim.refl (a : Ep) : Sim a a := ⟨rfl, .refl _⟩

theorem Sim.trans {a b c : Ep} (h : Sim a b) (h' : Sim b c) : Sim a c := by
  obtain ⟨h1, h2⟩ := h
  obtain ⟨h3, h4⟩ := h'
  refine ⟨?_, h4.trans h2⟩
  rw [h1] at h3
  exact h3

theorem does_sim {op : Op} {i} (ho : timerOf op = some i) {ep ep' a : Ep} (h : Sim ep ep') (hd : Does (updOf op ep) ep a) : ∃ b, Does (updOf op ep') ep' b ∧ Sim a b := by
  obtain ⟨h1, h2⟩ := h
  generalize hl : ep'.log = l at h1 h2
  subst h1
  have hu : updOf op { ep with log := l } = updOf op ep := by
    cases op with
    | reqTimer id io f => rfl
    | respTimer id => rfl
    | _ => cases ho
  rw [hu]
  cases hU : updOf op ep with
  | none =>
    rw [hU] at hd
    cases hd
    exact ⟨_, rfl, rfl, h2⟩
  | some U =>
    rw [hU] at hd
    obtain ⟨hc, rfl⟩ := hd
    refine ⟨_, ⟨hc, rfl⟩, rfl, ?_⟩
    exact ((h2.append_left _).append_left _).append_left _

theorem timer_sim {op : Op} (ho : (timerOf op).isSome) {ep ep' a : Ep} (hr : Reached ep) (hr' : Reached ep') (h : Sim ep ep') (hd : op.step ep = .ok a) :
    ∃ b, op.step ep' = .ok b ∧ Sim a b := by
  obtain ⟨i, hi⟩ := Option.isSome_iff_exists.1 ho
  obtain ⟨b, hb, hs⟩ := does_sim hi h ((timer_iff hi hr.inv).1 hd)
  exact ⟨b, (timer_iff hi hr'.inv).2 hb, hs⟩

theorem timers_sim : ∀ {ops : List Op}, (∀ op ∈ ops, (timerOf op).isSome) → ∀ {ep ep' a : Ep}, Reached ep → Reached ep' → Sim ep ep' → exec ops ep = .ok a →
    ∃ b, exec ops ep' = .ok b ∧ Sim a b
  | [], _, _, ep', _, _, _, h, he => by cases he; exact ⟨ep', rfl, h⟩
  | op :: ops, ho, ep, ep', a, hr, hr', h, he => by
    obtain ⟨c, h1, h2⟩ := Res.bind_eq_ok he
    obtain ⟨d, h3, h4⟩ := timer_sim (ho op (List.mem_cons_self ..)) hr hr' h h1
    obtain ⟨b, h5, h6⟩ := timers_sim (fun o h => ho o (List.mem_cons_of_mem _ h)) (hr.op _ h1) (hr'.op _ h3) h4 h2
    refine ⟨b, ?_, h6⟩
    show (op.step ep').bind (exec ops) = _
    rw [h3]; exact h5

theorem cond_apply {U V : Upd} {ep : Ep} : V.Cond (U.apply ep) ↔
    V.fine ∧ (∀ u, V.uses.count u ≤ ep.use u - U.uses.count u) ∧ ∀ fi, V.fail = some fi → (ep.peers.find? fun p => p.fi = fi).isSome := by
  unfold Upd.Cond Upd.apply
  dsimp only
  refine and_congr Iff.rfl (and_congr Iff.rfl ?_)
  constructor
  · intro h fi hf; rw [← failPeers_isSome U.fail ep.now ep.t26]; exact h fi hf
  · intro h fi hf; rw [failPeers_isSome]; exact h fi hf

theorem apply_comm {U V : Upd} {i j} (hU : U.Of i) (hV : V.Of j) (hij : i ≠ j) (ep : Ep) : Sim (V.apply (U.apply ep)) (U.apply (V.apply ep)) := by
  constructor
  · unfold Upd.apply
    dsimp only
    rw [updQueue_comm (by rw [hU.isId]; exact hU.keep) (by rw [hV.isId]; exact hV.keep) (by rw [hU.isId, hV.isId]; exact hij),
      updResps_comm (i := U.id) (j := V.id), failPeers_comm U.fail V.fail]
    congr 1
    funext u
    exact Nat.sub_right_comm ..
  · unfold Upd.apply
    dsimp only
    have h := failLog_comm U.fail V.fail ep.now ep.t26 ep.peers
    classical
    rw [List.perm_iff_count] at h ⊢
    intro e
    have h := h e
    simp only [List.count_append] at h ⊢
    omega

theorem two_timers {x y : Op} {i j} (hx : timerOf x = some i) (hy : timerOf y = some j) (hij : i ≠ j) {ep a b : Ep} (hr : Reached ep)
    (h1 : x.step ep = .ok a) (h2 : y.step a = .ok b) : ∃ c d, y.step ep = .ok c ∧ x.step c = .ok d ∧ Sim b d := by
  have hra := hr.op _ h1
  rw [timer_iff hx hr.inv] at h1
  rw [timer_iff hy hra.inv] at h2
  have fin : ∀ c d, Does (updOf y ep) ep c → Does (updOf x c) c d → Sim b d → ∃ c d, y.step ep = .ok c ∧ x.step c = .ok d ∧ Sim b d := by
    intro c d hc hd hs
    have hc := (timer_iff hy hr.inv).2 hc
    exact ⟨c, d, hc, (timer_iff hx (hr.op _ hc).inv).2 hd, hs⟩
  cases hu : updOf x ep with
  | none =>
    rw [hu] at h1
    cases h1
    cases hv : updOf y ep with
    | none =>
      rw [hv] at h2
      cases h2
      exact fin ep ep (by rw [hv]; rfl) (by rw [hu]; rfl) (.refl _)
    | some V =>
      rw [hv] at h2
      refine fin b b (by rw [hv]; exact h2) ?_ (.refl _)
      obtain ⟨-, rfl⟩ := h2
      rw [updOf_other hx (updOf_of hy hv) hij, hu]; rfl
  | some U =>
    rw [hu] at h1
    obtain ⟨hcU, rfl⟩ := h1
    have hU := updOf_of hx hu
    rw [updOf_other hy hU hij.symm] at h2
    cases hv : updOf y ep with
    | none =>
      rw [hv] at h2
      cases h2
      exact fin ep _ (by rw [hv]; rfl) (by rw [hu]; exact ⟨hcU, rfl⟩) (.refl _)
    | some V =>
      rw [hv] at h2
      obtain ⟨hcV, rfl⟩ := h2
      have hV := updOf_of hy hv
      rw [cond_apply] at hcV
      obtain ⟨f1, f2, f3⟩ := hcU
      obtain ⟨g1, g2, g3⟩ := hcV
      refine fin (V.apply ep) (U.apply (V.apply ep)) (by rw [hv]; exact ⟨⟨g1, fun u => Nat.le_trans (g2 u) (Nat.sub_le ..), g3⟩, rfl⟩) ?_ (apply_comm hU hV hij ep)
      rw [updOf_other hx hV hij, hu]
      refine ⟨cond_apply.2 ⟨f1, fun u => ?_, f3⟩, rfl⟩
      have := f2 u
      have := g2 u
      omega

theorem different_perm {a b : List Op} (h : DifferentTimers a) (hp : a.Perm b) : DifferentTimers b :=
  ⟨fun op ho => h.1 op (hp.mem_iff.2 ho), (hp.map timerOf).nodup_iff.1 h.2⟩

theorem timers_perm {ops ops' : List Op} (hp : ops.Perm ops') : DifferentTimers ops → ∀ {ep a : Ep}, Reached ep → exec ops ep = .ok a →
    ∃ b, exec ops' ep = .ok b ∧ Sim a b := by
  induction hp with
  | nil => intro _ ep a _ h; exact ⟨a, h, .refl _⟩
  | cons x hp ih =>
    intro hd ep a hr h
    obtain ⟨c, h1, h2⟩ := Res.bind_eq_ok h
    have hd' := hd.2
    rw [List.map_cons, List.nodup_cons] at hd'
    obtain ⟨b, h3, h4⟩ := ih ⟨fun o ho => hd.1 o (List.mem_cons_of_mem _ ho), hd'.2⟩ (hr.op _ h1) h2
    refine ⟨b, ?_, h4⟩
    show (x.step ep).bind _ = _
    rw [h1]; exact h3
  | swap x y l =>
    intro hd ep a hr h
    obtain ⟨c, h1, h'⟩ := Res.bind_eq_ok h
    obtain ⟨d, h2, h3⟩ := Res.bind_eq_ok h'
    have hd' := hd.2
    rw [List.map_cons, List.map_cons, List.nodup_cons] at hd'
    obtain ⟨j, hj⟩ := Option.isSome_iff_exists.1 (hd.1 y (by simp))
    obtain ⟨i, hi⟩ := Option.isSome_iff_exists.1 (hd.1 x (by simp))
    have hij : j ≠ i := by
      intro e
      apply hd'.1
      rw [hj, hi, e]
      exact List.mem_cons_self ..
    obtain ⟨c', d', h4, h5, h6⟩ := two_timers hj hi hij hr h1 h2
    obtain ⟨b, h7, h8⟩ := timers_sim (fun o ho => hd.1 o (List.mem_cons_of_mem _ (List.mem_cons_of_mem _ ho))) ((hr.op _ h1).op _ h2) ((hr.op _ h4).op _ h5) h6 h3
    refine ⟨b, ?_, h8⟩
    show (x.step ep).bind (fun e => (y.step e).bind (exec l)) = _
    rw [h4]
    show (y.step c').bind (exec l) = _
    rw [h5]; exact h7
  | trans h1 h2 ih1 ih2 =>
    intro hd ep a hr h
    obtain ⟨b, h3, h4⟩ := ih1 hd hr h
    obtain ⟨c, h5, h6⟩ := ih2 (different_perm hd h1) hr h3
    exact ⟨c, h5, h4.trans h6⟩

/-- C124: when several timers of queued messages have expired, the order in which they are handled does not matter: the endpoint ends up in the same state, and the same
things happen, in another order. -/
theorem C124_timer_order {ops ops' : List Op} {ep a : Ep} (hr : Reached ep) (hd : DifferentTimers ops) (hp : ops.Perm ops') (h : exec ops ep = .ok a) :
    ∃ b, exec ops' ep = .ok b ∧ SameUpToOrder ep a b := by
  obtain ⟨b, h1, h2⟩ := timers_perm hp hd hr h
  obtain ⟨la, hla⟩ := (exec_tops h hr.inv.busy).2.log
  obtain ⟨lb, hlb⟩ := (exec_tops h1 hr.inv.busy).2.log
  refine ⟨b, h1, h2.eq, la, lb, hla, hlb, ?_⟩
  have := h2.perm
  rw [hla, hlb] at this
  exact (List.perm_append_right_iff _).1 this

/-- C124: nor does it matter for whether handling them crashes. -/
theorem C124_timer_crash {ops ops' : List Op} {ep : Ep} (hr : Reached ep) (hd : DifferentTimers ops) (hp : ops.Perm ops') :
    (∃ a, exec ops ep = .ok a) ↔ ∃ b, exec ops' ep = .ok b := by
  constructor
  · rintro ⟨a, h⟩
    obtain ⟨b, hb, -⟩ := C124_timer_order hr hd hp h
    exact ⟨b, hb⟩
  · rintro ⟨b, h⟩
    obtain ⟨a, ha, -⟩ := C124_timer_order hr (different_perm hd hp) hp.symm h
    exact ⟨a, ha⟩

/-! ### Example -/

/-- Which messages were sent or freed, latest first. -/
def sentFreed (x : Res Ep) : List (Nat × Bool) :=
  match x with
  | .ok ep => ep.log.filterMap fun e => match e with | .send _ i _ _ _ _ => some (i, true) | .freed i => some (i, false) | _ => none
  | _ => []

/-- The timers of two requests and a response. -/
def exTimers : List Op := [.reqTimer 0 true .done, .reqTimer 1 false .done, .respTimer 2]

example : DifferentTimers exTimers := ⟨by decide, by decide⟩

/-- Two requests and a response were sent, the timers of all have expired.  The first request is sent again, sending the second fails and it is freed, the response is freed. -/
example : sentFreed (exec ([.app (.bind true (.tx exReq true .done (.tx exReq true .done (.tx { exReq with isResponse := true } true .done .done)))), .advance 100000] ++ exTimers) exEp) =
      [(2, false), (1, false), (1, true), (0, true), (2, true), (1, true), (0, true)] ∧
    sentFreed (exec ([.app (.bind true (.tx exReq true .done (.tx exReq true .done (.tx { exReq with isResponse := true } true .done .done)))), .advance 100000] ++ exTimers.reverse) exEp) =
      [(0, true), (1, false), (1, true), (2, false), (2, true), (1, true), (0, true)] := by
  set_option maxRecDepth 100000 in decide +kernel

end Verif.Props
