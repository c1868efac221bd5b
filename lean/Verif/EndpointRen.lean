/-
What an endpoint does does not depend on how messages are numbered, nor on the log.
-/
import Verif.SpecNoise

namespace Verif
open Spec

/-- Other numbers, and another log before. -/
structure Ren where
  f : Nat → Nat
  d : Nat
  n0 : Nat
  base : List Event
  inj : ∀ i j, f i = f j → i = j
  shift : ∀ i, n0 ≤ i → f i = i + d

def renEntry (f : Nat → Nat) (e : QEntry) : QEntry := { e with id := f e.id }

theorem renQueue_eq (f) (q : List QEntry) : renQueue f q = q.map (renEntry f) := rfl

def Ren.ep (R : Ren) (a : Ep) : Ep :=
  { a with reqs := a.reqs.map (renEntry R.f), resps := a.resps.map (renEntry R.f), busy := a.busy.map R.f, nextId := a.nextId + R.d
           log := a.log.map (renEvent R.f) ++ R.base }

/-- The numbers in an event are below this one. -/
def whyBelow (n : Nat) : Why → Prop
  | .heartbeatReply k => k < n
  | .cachedReply k => k < n
  | _ => True

def Below (n : Nat) : Event → Prop
  | .passed id .. => id < n
  | .returned id _ => id < n
  | .send why id .. => whyBelow n why ∧ id < n
  | .respCb id resp _ => id < n ∧ ∀ k, resp = some k → k < n
  | .received k _ => k < n
  | .setCtx k req => k < n ∧ ∀ i, req = some i → i < n
  | .dispatch k req => k < n ∧ ∀ i, req = some i → i < n
  | .freed id => id < n
  | .dropped id => id < n
  | _ => True

theorem whyBelow.mono {n n' : Nat} (h : n ≤ n') {w} (hw : whyBelow n w) : whyBelow n' w := by
  cases w <;> simp only [whyBelow] at * <;> omega

theorem Below.mono {n n' : Nat} (h : n ≤ n') {e} (he : Below n e) : Below n' e := by
  cases e <;> simp only [Below] at * <;> first
    | omega
    | exact ⟨he.1.mono h, Nat.lt_of_lt_of_le he.2 h⟩
    | exact ⟨Nat.lt_of_lt_of_le he.1 h, fun k hk => Nat.lt_of_lt_of_le (he.2 k hk) h⟩
    | trivial

structure Low (c : Ep) : Prop where
  reqs : ∀ e ∈ c.reqs, e.id < c.nextId
  resps : ∀ e ∈ c.resps, e.id < c.nextId
  log : ∀ e ∈ c.log, Below c.nextId e

structure Sim (R : Ren) (n : Nat) (c b : Ep) : Prop where
  eq : b = R.ep c
  n0 : R.n0 ≤ c.nextId
  n : n ≤ c.nextId
  low : Low c

def RR {α : Type} (P : α → α → Prop) : Res α → Res α → Prop
  | .ok a, .ok b => P a b
  | .err e, .err e' => e = e'
  | .abort, .abort => True
  | .ub, .ub => True
  | .diverge, .diverge => True
  | _, _ => False

theorem RR.bind {α β : Type} {P : α → α → Prop} {Q : β → β → Prop} {x y : Res α} {g h : α → Res β} (hx : RR P x y)
    (hg : ∀ a b, P a b → RR Q (g a) (h b)) : RR Q (x.bind g) (y.bind h) := by
  cases x <;> cases y <;> simp only [RR, Res.bind] at * <;> first | exact hg _ _ hx | exact hx | trivial | exact hx.elim

abbrev Same1 (R : Ren) (n : Nat) (x y : Res Ep) : Prop := RR (Sim R n) x y

abbrev Same2 {α : Type} (R : Ren) (n : Nat) (x y : Res (Ep × α)) : Prop := RR (fun p q => Sim R n p.1 q.1 ∧ p.2 = q.2) x y

variable {R : Ren} {n : Nat}

theorem Sim.weaken {c b : Ep} {m} (h : Sim R n c b) (hm : m ≤ c.nextId) : Sim R m c b := ⟨h.eq, h.n0, hm, h.low⟩

theorem Sim.note {c b : Ep} (h : Sim R n c b) {e} (he : Below c.nextId e) : Sim R n (c.note e) (b.note (renEvent R.f e)) := by
  obtain ⟨rfl, h1, h2, h3⟩ := h
  refine ⟨rfl, h1, h2, h3.reqs, h3.resps, ?_⟩
  intro x hx
  rcases List.mem_cons.1 hx with rfl | hx
  · exact he
  · exact h3.log x hx

theorem Sim.takeUses {c b : Ep} (h : Sim R n c b) (us) : Sim R n (c.takeUses us) (b.takeUses us) := by
  obtain ⟨rfl, h1, h2, h3⟩ := h
  exact ⟨rfl, h1, h2, h3.reqs, h3.resps, h3.log⟩

theorem RR.ite {α : Type} {P : α → α → Prop} {p q : Prop} [Decidable p] [Decidable q] (h : p ↔ q) {x x' y y' : Res α}
    (h1 : RR P x x') (h2 : RR P y y') : RR P (if p then x else y) (if q then x' else y') := by
  by_cases hp : p
  · rw [if_pos hp, if_pos (h.1 hp)]; exact h1
  · rw [if_neg hp, if_neg fun hq => hp (h.2 hq)]; exact h2

theorem Sim.ite {a b a' b' : Ep} {p q : Prop} [Decidable p] [Decidable q] (h : p ↔ q)
    (h1 : Sim R n a a') (h2 : Sim R n b b') : Sim R n (if p then a else b) (if q then a' else b') := by
  by_cases hp : p
  · rw [if_pos hp, if_pos (h.1 hp)]; exact h1
  · rw [if_neg hp, if_neg fun hq => hp (h.2 hq)]; exact h2

theorem Sim.peers {c b : Ep} (h : Sim R n c b) {ps ps'} (hp : ps' = ps) : Sim R n { c with peers := ps } { b with peers := ps' } := by
  subst hp
  obtain ⟨rfl, h1, h2, h3⟩ := h
  exact ⟨rfl, h1, h2, h3.reqs, h3.resps, h3.log⟩

theorem releaseUses_ren : ∀ (us : List (Nat × Nat)) {c b : Ep}, Sim R n c b → Same1 R n (c.releaseUses us) (b.releaseUses us)
  | [], c, b, h => h
  | u :: us, c, b, h => by
    unfold Ep.releaseUses
    obtain ⟨rfl, h1, h2, h3⟩ := h
    show RR _ _ (if c.use u = 0 then _ else _)
    by_cases hu : c.use u = 0
    · rw [if_pos hu, if_pos hu]; trivial
    · rw [if_neg hu, if_neg hu]
      exact releaseUses_ren us ⟨rfl, h1, h2, h3.reqs, h3.resps, h3.log⟩

theorem Sim.peerChg {c b : Ep} (h : Sim R n c b) (fi st) : Sim R n (c.peerChg fi st) (b.peerChg fi st) := by
  unfold Ep.peerChg
  have e1 : b.peer? fi = c.peer? fi := by rw [h.eq]; rfl
  rw [e1]
  cases c.peer? fi with
  | none => exact h
  | some p =>
    dsimp only
    split
    · exact (h.peers (by rw [h.eq]; rfl)).note (e := .peer _ _) trivial
    · exact h

theorem assocResp_ren {c b : Ep} (h : Sim R n c b) {ctx resp} {g g' : Ep → Res Ep} (hg : ∀ c b, Sim R n c b → Same1 R n (g c) (g' b)) :
    Same1 R n (c.assocResp ctx resp g) (b.assocResp ctx resp g') := by
  unfold Ep.assocResp
  cases ctx.peerFi with
  | none => trivial
  | some fi =>
    have hp : b.peer? fi = c.peer? fi := by rw [h.eq]; rfl
    dsimp only
    rw [hp]
    cases c.peer? fi with
    | none => trivial
    | some p =>
      dsimp only
      cases resp with
      | none => exact h.peerChg _ _
      | some m =>
        dsimp only
        split
        · exact h.peerChg _ _
        · split
          · exact h
          · split
            · exact hg _ _ ((h.peerChg _ _).note (e := .peer _ _) trivial)
            · exact h.peerChg _ _

theorem sendMsg_ren {c b : Ep} (h : Sim R n c b) {why id m io} (hw : whyBelow c.nextId why) (hid : id < c.nextId) :
    Same2 R n (c.sendMsg why id m io) (b.sendMsg (renWhy R.f why) (R.f id) m io) := by
  unfold Ep.sendMsg
  have hs : b.sock = c.sock := by rw [h.eq]; rfl
  have hnow : b.now = c.now := by rw [h.eq]; rfl
  cases m.encode with
  | ok o =>
    dsimp only
    rw [hs, hnow]
    split
    · exact ⟨h.note (e := .send why id _ _ _ _) ⟨hw, hid⟩, rfl⟩
    · exact ⟨h, rfl⟩
  | err e l => exact ⟨h, rfl⟩
  | abort => trivial
  | ub => trivial
  | diverge => trivial

theorem using_ren {c b : Ep} (h : Sim R n c b) {id} {g g' : Ep → Res Ep} (hg : ∀ c b, Sim R n c b → Same1 R n (g c) (g' b)) :
    Same1 R n (c.using id g) (b.using (R.f id) g') := by
  unfold Ep.using
  obtain ⟨rfl, h1, h2, h3⟩ := h
  refine RR.bind (hg _ _ ⟨rfl, h1, h2, h3.reqs, h3.resps, h3.log⟩) ?_
  rintro a b ⟨rfl, g1, g2, g3⟩
  exact ⟨rfl, g1, g2, g3.reqs, g3.resps, g3.log⟩

theorem failCb_ren {c b : Ep} (h : Sim R n c b) {id m} (hid : id < c.nextId) {g g' : Ep → Res Ep}
    (hg : ∀ c b, Sim R n c b → Same1 R n (g c) (g' b)) : Same1 R n (c.failCb id m g) (b.failCb (R.f id) m g') := by
  unfold Ep.failCb
  split
  · have hnow : b.now = c.now := by rw [h.eq]; rfl
    rw [hnow]
    exact using_ren (h.note (e := .respCb id none _) ⟨hid, fun _ h => by cases h⟩) hg
  · exact h

theorem queueAdd_ren {c b : Ep} (h : Sim R n c b) {id m} (hid : id < c.nextId) {g g' : Ep → Res Ep}
    (hg : ∀ c b, Sim R n c b → Same1 R n (g c) (g' b)) : Same1 R n (c.queueAdd id m g) (b.queueAdd (R.f id) m g') := by
  unfold Ep.queueAdd
  have e1 : b.n1 = c.n1 := by rw [h.eq]; rfl
  have e2 : b.t1 = c.t1 := by rw [h.eq]; rfl
  rw [e1, e2]
  split
  · exact failCb_ren h hid hg
  · obtain ⟨rfl, h1, h2, h3⟩ := h
    split
    · refine ⟨?_, h1, h2, h3.reqs, ?_, h3.log⟩
      · simp only [Ren.ep, List.map_append, List.map_cons, List.map_nil]
        rfl
      · intro e he
        rcases List.mem_append.1 he with he | he
        · exact h3.resps e he
        · rw [List.mem_singleton.1 he]; exact hid
    · refine ⟨rfl, h1, h2, ?_, h3.resps, h3.log⟩
      intro e he
      rcases List.mem_cons.1 he with rfl | he
      · exact hid
      · exact h3.reqs e he

theorem RR.ok {α : Type} {P : α → α → Prop} {x y : Res α} (h : RR P x y) {b} (hy : y = .ok b) : ∃ a, x = .ok a ∧ P a b := by
  subst hy
  cases x <;> simp only [RR] at h
  exact ⟨_, rfl, h⟩

/-- After a new number was taken. -/
theorem Sim.next {c b : Ep} (h : Sim R n c b) : Sim R (c.nextId + 1) { c with nextId := c.nextId + 1 } { b with nextId := b.nextId + 1 } ∧
    b.nextId = R.f c.nextId := by
  obtain ⟨rfl, h1, h2, h3⟩ := h
  refine ⟨⟨?_, Nat.le_succ_of_le h1, Nat.le_refl _, fun e he => Nat.lt_succ_of_lt (h3.reqs e he), fun e he => Nat.lt_succ_of_lt (h3.resps e he),
    fun e he => (h3.log e he).mono (Nat.le_succ _)⟩, (R.shift _ h1).symm⟩
  show ({ R.ep c with nextId := c.nextId + R.d + 1 } : Ep) = _
  rw [show c.nextId + R.d + 1 = c.nextId + 1 + R.d by omega]
  rfl

theorem RR.imp {α : Type} {P Q : α → α → Prop} {x y : Res α} (h : RR P x y) (hi : ∀ a b, P a b → Q a b) : RR Q x y := by
  cases x <;> cases y <;> simp only [RR] at * <;> first | exact hi _ _ h | exact h | exact h.elim

theorem Same1.weaken {m} (hm : m ≤ n) {x y : Res Ep} (h : Same1 R n x y) : Same1 R m x y :=
  RR.imp h fun _ _ h => h.weaken (Nat.le_trans hm h.n)

theorem draw_ren {c b : Ep} (h : Sim R n c b) (m) : Sim R n (c.draw m).1 (b.draw m).1 ∧ (b.draw m).2 = (c.draw m).2 ∧
    (c.draw m).1.nextId = c.nextId := by
  obtain ⟨rfl, h1, h2, h3⟩ := h
  exact ⟨⟨rfl, h1, h2, h3.reqs, h3.resps, h3.log⟩, rfl, rfl⟩

/-- osmo_pfcp_endpoint_tx(): its return is the latest event. -/
theorem tx_ren {c b : Ep} (h : Sim R n c b) {m io} {g g' : Ep → Res Ep} (hg : ∀ k c b, Sim R k c b → Same1 R k (g c) (g' b)) :
    RR (fun a b => Sim R n a b ∧ ∃ i rc l, a.log = .returned i rc :: l) (c.tx m io g) (b.tx m io g') := by
  unfold Ep.tx
  obtain ⟨hs, hid⟩ := h.next
  have hn := h.n
  generalize hk : c.nextId = k at *
  rw [hid]
  dsimp only
  rw [hid] at hs
  have key : ∀ {c b : Ep} {m}, Sim R (k + 1) c b → RR (fun a b => Sim R n a b ∧ ∃ i rc l, a.log = .returned i rc :: l)
      (((c.note (.passed k c.n1 c.t1 m)).sendMsg .tx k m io).bind fun x => match x with
        | (ep, m, rc) => match rc with
          | some e => (ep.failCb k m g).bind fun ep => (ep.releaseUses m.ctx.uses).bind fun ep =>
              .ok ((ep.note (.freed k)).note (.returned k (some e)))
          | none => (ep.queueAdd k m g).bind fun ep => .ok (ep.note (.returned k none)))
      (((b.note (.passed (R.f k) b.n1 b.t1 m)).sendMsg .tx (R.f k) m io).bind fun x => match x with
        | (ep, m, rc) => match rc with
          | some e => (ep.failCb (R.f k) m g').bind fun ep => (ep.releaseUses m.ctx.uses).bind fun ep =>
              .ok ((ep.note (.freed (R.f k))).note (.returned (R.f k) (some e)))
          | none => (ep.queueAdd (R.f k) m g').bind fun ep => .ok (ep.note (.returned (R.f k) none))) := by
    intro c b m hs
    have e1 : b.n1 = c.n1 := by rw [hs.eq]; rfl
    have e2 : b.t1 = c.t1 := by rw [hs.eq]; rfl
    rw [e1, e2]
    refine RR.bind (sendMsg_ren (hs.note (e := .passed k _ _ _) hs.n) (why := .tx) trivial hs.n) ?_
    rintro ⟨a1, m1, rc1⟩ ⟨b1, m2, rc2⟩ ⟨h1, h2⟩
    cases h2
    dsimp only at h1 ⊢
    cases rc1 with
    | some e =>
      refine RR.bind (failCb_ren h1 h1.n (hg _)) fun a2 b2 h2 => ?_
      refine RR.bind (releaseUses_ren _ h2) fun a3 b3 h3 => ?_
      have := (h3.note (e := .freed k) h3.n)
      exact ⟨(this.note (e := .returned k (some e)) this.n).weaken (Nat.le_trans (Nat.le_succ_of_le hn) this.n), _, _, _, rfl⟩
    | none =>
      refine RR.bind (queueAdd_ren h1 h1.n (hg _)) fun a2 b2 h2 => ?_
      exact ⟨(h2.note (e := .returned k none) h2.n).weaken (Nat.le_trans (Nat.le_succ_of_le hn) h2.n), _, _, _, rfl⟩
  have ecfg : b.cfg = c.cfg := by rw [h.eq]; rfl
  cases m.isResponse with
  | true =>
    simp only [if_true]
    have em : m.withNodeId b.cfg.nodeId = m.withNodeId c.cfg.nodeId := by rw [ecfg]
    have := key (m := m.withNodeId c.cfg.nodeId) hs
    rw [← em] at this ⊢
    exact this
  | false =>
    simp only [Bool.false_eq_true, if_false]
    obtain ⟨d1, d2, d3⟩ := draw_ren hs m
    rw [d2]
    have ecfg' : (Ep.draw { b with nextId := R.f k + 1 } m).1.cfg = (Ep.draw { c with nextId := k + 1 } m).1.cfg := ecfg
    rw [ecfg']
    exact key d1

theorem tx_ren' {c b : Ep} (h : Sim R n c b) {m io} {g g' : Ep → Res Ep} (hg : ∀ k c b, Sim R k c b → Same1 R k (g c) (g' b)) :
    Same1 R n (c.tx m io g) (b.tx m io g') := (tx_ren h hg).imp fun _ _ h => h.1

theorem txDirect_ren {c b : Ep} (h : Sim R n c b) {m io why} (hw : renWhy R.f why = why) (hw' : ∀ k, whyBelow k why) :
    Same1 R n (c.txDirect m io why) (b.txDirect m io why) := by
  unfold Ep.txDirect
  obtain ⟨hs, hid⟩ := h.next
  have hn := h.n
  rw [hid] at hs ⊢
  have := sendMsg_ren (m := m) (io := io) hs (hw' _) hs.n
  rw [hw] at this
  refine RR.bind this ?_
  rintro ⟨a1, m1, rc1⟩ ⟨b1, m2, rc2⟩ ⟨h1, -⟩
  exact h1.weaken (Nat.le_trans (Nat.le_succ_of_le hn) h1.n)

theorem txHeartbeat_ren {c b : Ep} (h : Sim R n c b) {remote io} : Same1 R n (c.txHeartbeat remote io) (b.txHeartbeat remote io) := by
  unfold Ep.txHeartbeat
  have hr : b.rts = c.rts := by rw [h.eq]; rfl
  rw [hr]
  obtain ⟨d1, d2, -⟩ := draw_ren h (heartbeatReq remote c.rts)
  dsimp only
  rw [d2]
  exact txDirect_ren d1 rfl fun _ => trivial

theorem contains_map (R : Ren) (l : List Nat) (i : Nat) : (l.map R.f).contains (R.f i) = l.contains i := by
  induction l with
  | nil => rfl
  | cons x l ih =>
    rw [List.map_cons, List.contains_cons, List.contains_cons, ih]
    congr 1
    by_cases h : i = x
    · simp [h]
    · have : R.f i ≠ R.f x := fun h' => h (R.inj _ _ h')
      rw [beq_eq_false_iff_ne.2 h, beq_eq_false_iff_ne.2 this]

theorem close_ren {c b : Ep} (h : Sim R n c b) : Same1 R n c.close b.close := by
  unfold Ep.close
  have e1 : b.reqs ++ b.resps = (c.reqs ++ c.resps).map (renEntry R.f) := by rw [h.eq, List.map_append]; rfl
  have e2 : b.busy = c.busy.map R.f := by rw [h.eq]; rfl
  have e3 : ((b.reqs ++ b.resps).any fun e => b.busy.contains e.id) = (c.reqs ++ c.resps).any fun e => c.busy.contains e.id := by
    rw [e1, e2, List.any_map]
    congr 1
    funext e
    exact contains_map R _ _
  have e4 : ((b.reqs ++ b.resps).map fun e => e.m.ctx.uses).flatten = ((c.reqs ++ c.resps).map fun e => e.m.ctx.uses).flatten := by
    rw [e1, List.map_map]; rfl
  rw [e3, e4]
  split
  · trivial
  refine RR.bind (releaseUses_ren _ h) ?_
  rintro a b ⟨rfl, h1, h2, h3⟩
  refine ⟨?_, h1, h2, by simp [Ep.closed], by simp [Ep.closed], ?_⟩
  · have key : ∀ q : List QEntry, ((q.map (renEntry R.f)).map fun e => [Event.dropped e.id, Event.freed e.id]).flatten =
        ((q.map fun e => [Event.dropped e.id, Event.freed e.id]).flatten).map (renEvent R.f) := by
      intro q
      induction q with
      | nil => rfl
      | cons x q ih =>
        simp only [List.map_cons, List.flatten_cons, ih, List.map_append]
        rfl
    unfold Ep.closed
    have e : ((((R.ep a).reqs ++ (R.ep a).resps).map fun e => [Event.dropped e.id, Event.freed e.id]).flatten.reverse ++ (R.ep a).log) =
        (((a.reqs ++ a.resps).map fun e => [Event.dropped e.id, Event.freed e.id]).flatten.reverse ++ a.log).map (renEvent R.f) ++ R.base := by
      show ((((a.reqs.map (renEntry R.f)) ++ (a.resps.map (renEntry R.f))).map fun e => [Event.dropped e.id, Event.freed e.id]).flatten.reverse ++
        (a.log.map (renEvent R.f) ++ R.base)) = _
      rw [← List.map_append, key, ← List.map_reverse, ← List.append_assoc, ← List.map_append]
    rw [e]
    rfl
  · intro e he
    rcases List.mem_append.1 he with he | he
    · rw [List.mem_reverse] at he
      obtain ⟨l, hl, he⟩ := List.mem_flatten.1 he
      obtain ⟨x, hx, rfl⟩ := List.mem_map.1 hl
      have hlt : x.id < a.nextId := by
        rcases List.mem_append.1 hx with hx | hx
        · exact h3.reqs x hx
        · exact h3.resps x hx
      simp only [List.mem_cons, List.not_mem_nil, or_false] at he
      rcases he with rfl | rfl <;> exact hlt
    · exact h3.log e he

theorem bind_ren {c b : Ep} (h : Sim R n c b) {ok} : Same1 R n (c.bind ok) (b.bind ok) := by
  unfold Ep.bind
  refine RR.bind (close_ren h) ?_
  rintro a b ⟨rfl, h1, h2, h3⟩
  exact ⟨rfl, h1, h2, h3.reqs, h3.resps, h3.log⟩

theorem invalidate_ren {c b : Ep} (h : Sim R n c b) {fi} : Sim R n (c.invalidate fi) (b.invalidate fi) := by
  obtain ⟨rfl, h1, h2, h3⟩ := h
  refine Sim.note (c := c.dropCtx fi) (e := .invalidated fi) ⟨?_, h1, h2, ?_, ?_, h3.log⟩ trivial
  · simp only [Ep.dropCtx, Ren.ep, List.map_map]
    rfl
  · intro e he
    obtain ⟨x, hx, rfl⟩ := List.mem_map.1 he
    exact h3.reqs x hx
  · intro e he
    obtain ⟨x, hx, rfl⟩ := List.mem_map.1 he
    exact h3.resps x hx

theorem assocStart_ren {c b : Ep} (h : Sim R n c b) {fi p io} : Same1 R n (c.assocStart fi p io) (b.assocStart fi p io) := by
  unfold Ep.assocStart
  split
  · exact h
  have hp := h.peerChg fi .waitAssoc
  have hr : (b.peerChg fi .waitAssoc).rts = (c.peerChg fi .waitAssoc).rts := by rw [hp.eq]; rfl
  dsimp only
  rw [hr]
  refine RR.bind (tx_ren (hp.takeUses _) fun k c b h => assocResp_ren h fun _ _ h => h) ?_
  rintro a b ⟨h1, i, rc, l, hl⟩
  have : txFailed b.log = txFailed a.log := by
    rw [h1.eq]
    show txFailed (a.log.map _ ++ _) = _
    rw [hl]
    cases rc <;> rfl
  rw [this]
  split
  · exact h1.peerChg _ _
  · exact h1

theorem associate_ren {c b : Ep} (h : Sim R n c b) {fi io} : Same1 R n (c.associate fi io) (b.associate fi io) := by
  unfold Ep.associate
  have hp : b.peer? fi = c.peer? fi := by rw [h.eq]; rfl
  rw [hp]
  cases c.peer? fi with
  | none => exact h
  | some p =>
    dsimp only
    split
    · exact assocStart_ren h
    · exact h

theorem peerTimer_ren {c b : Ep} (h : Sim R n c b) {fi io} : Same1 R n (c.peerTimer fi io) (b.peerTimer fi io) := by
  unfold Ep.peerTimer
  have hp : b.peer? fi = c.peer? fi := by rw [h.eq]; rfl
  have hnow : b.now = c.now := by rw [h.eq]; rfl
  rw [hp]
  cases c.peer? fi with
  | none => exact h
  | some p =>
    dsimp only
    refine RR.ite (by rw [hnow]) h (RR.ite Iff.rfl ?_ ?_)
    · exact assocStart_ren (h.peers (by rw [h.eq]; rfl))
    · exact h.peers (by rw [h.eq]; rfl)

theorem newPeer_ren {c b : Ep} (h : Sim R n c b) {fi remote} : Sim R n (c.newPeer fi remote) (b.newPeer fi remote) := by
  unfold Ep.newPeer
  have hp : b.peer? fi = c.peer? fi := by rw [h.eq]; rfl
  rw [hp]
  cases c.peer? fi with
  | some p => exact h
  | none =>
    exact h.peers (by rw [h.eq]; rfl)

theorem setAssocCb_ren {c b : Ep} (h : Sim R n c b) {fi cb} : Sim R n (c.setAssocCb fi cb) (b.setAssocCb fi cb) := by
  unfold Ep.setAssocCb
  have hp : b.peer? fi = c.peer? fi := by rw [h.eq]; rfl
  rw [hp]
  cases c.peer? fi with
  | none => exact h
  | some p =>
    exact (h.peers (by rw [h.eq]; rfl)).note (e := .peer _ _) trivial

theorem run_ren : ∀ (a : App) {n : Nat} {c b : Ep}, Sim R n c b → Same1 R n (a.run c) (a.run b)
  | .done, n, c, b, h => h
  | .tx m io onFail rest, n, c, b, h => by
    unfold App.run
    split
    · trivial
    · exact RR.bind (tx_ren' (h.takeUses _) fun k c b h => run_ren onFail h) fun _ _ h => run_ren rest h
  | .txData m io rest, n, c, b, h => by
    unfold App.run
    exact RR.bind (txDirect_ren h rfl fun _ => trivial) fun _ _ h => run_ren rest h
  | .heartbeat remote io rest, n, c, b, h => by
    unfold App.run
    exact RR.bind (txHeartbeat_ren h) fun _ _ h => run_ren rest h
  | .invalidate fi rest, n, c, b, h => by
    unfold App.run
    exact run_ren rest (invalidate_ren h)
  | .setSeq s rest, n, c, b, h => by
    unfold App.run
    obtain ⟨rfl, h1, h2, h3⟩ := h
    exact run_ren rest ⟨rfl, h1, h2, h3.reqs, h3.resps, h3.log⟩
  | .setTimers n1 t1 keepResp rest, n, c, b, h => by
    unfold App.run
    obtain ⟨rfl, h1, h2, h3⟩ := h
    exact run_ren rest (Sim.note (c := { c with n1, t1, keepResp }) (e := .config _ _ _) ⟨rfl, h1, h2, h3.reqs, h3.resps, h3.log⟩ trivial)
  | .close rest, n, c, b, h => by
    unfold App.run
    exact RR.bind (close_ren h) fun _ _ h => run_ren rest h
  | .bind ok rest, n, c, b, h => by
    unfold App.run
    exact RR.bind (bind_ren h) fun _ _ h => run_ren rest h
  | .setT26 t26 rest, n, c, b, h => by
    unfold App.run
    obtain ⟨rfl, h1, h2, h3⟩ := h
    exact run_ren rest (Sim.note (c := { c with t26 }) (e := .configT26 _) ⟨rfl, h1, h2, h3.reqs, h3.resps, h3.log⟩ trivial)
  | .newPeer fi remote rest, n, c, b, h => by
    unfold App.run
    exact run_ren rest (newPeer_ren h)
  | .setAssocCb fi cb rest, n, c, b, h => by
    unfold App.run
    exact run_ren rest (setAssocCb_ren h)
  | .associate fi io rest, n, c, b, h => by
    unfold App.run
    exact RR.bind (associate_ren h) fun _ _ h => run_ren rest h

/-! ### Timers -/

theorem find_ren (R : Ren) (q : List QEntry) (id : Nat) : (q.map (renEntry R.f)).find? (fun e => e.id = R.f id) =
    (q.find? fun e => e.id = id).map (renEntry R.f) := by
  rw [List.find?_map]
  congr 2
  funext e
  show decide (R.f e.id = R.f id) = decide (e.id = id)
  exact decide_eq_decide.2 ⟨R.inj _ _, fun h => by rw [h]⟩

theorem any_ren (R : Ren) (q : List QEntry) (id : Nat) : ((q.map (renEntry R.f)).any fun e => e.id = R.f id) = q.any fun e => e.id = id := by
  rw [List.any_map]
  congr 1
  funext e
  show decide (R.f e.id = R.f id) = decide (e.id = id)
  exact decide_eq_decide.2 ⟨R.inj _ _, fun h => by rw [h]⟩

theorem filter_ren (R : Ren) (q : List QEntry) (id : Nat) : (q.map (renEntry R.f)).filter (fun e => e.id ≠ R.f id) =
    (q.filter fun e => e.id ≠ id).map (renEntry R.f) := by
  rw [List.filter_map]
  congr 2
  funext e
  show decide (R.f e.id ≠ R.f id) = decide (e.id ≠ id)
  exact decide_eq_decide.2 ⟨fun h h' => h (by rw [h']), fun h h' => h (R.inj _ _ h')⟩

theorem filterEq_ren (R : Ren) (q : List QEntry) (id : Nat) : (q.map (renEntry R.f)).filter (fun e => e.id = R.f id) =
    (q.filter fun e => e.id = id).map (renEntry R.f) := by
  rw [List.filter_map]
  congr 2
  funext e
  show decide (R.f e.id = R.f id) = decide (e.id = id)
  exact decide_eq_decide.2 ⟨R.inj _ _, fun h => by rw [h]⟩

theorem setEntry_ren (R : Ren) (q : List QEntry) (e : QEntry) : setEntry (q.map (renEntry R.f)) (renEntry R.f e) =
    (setEntry q e).map (renEntry R.f) := by
  unfold setEntry
  rw [List.map_map, List.map_map]
  congr 1
  funext x
  show (if R.f x.id = R.f e.id then _ else _) = renEntry R.f (if x.id = e.id then _ else _)
  by_cases h : x.id = e.id
  · rw [if_pos h, if_pos (by rw [h])]
  · rw [if_neg h, if_neg fun h' => h (R.inj _ _ h')]

theorem setEntry_low {q : List QEntry} {e : QEntry} {k} (h : ∀ x ∈ q, x.id < k) : ∀ x ∈ setEntry q e, x.id < k := by
  intro x hx
  obtain ⟨y, hy, rfl⟩ := List.mem_map.1 hx
  have := h y hy
  split
  · rename_i he; rw [← he]; exact this
  · exact this

theorem Sim.setReq {c b : Ep} (h : Sim R n c b) (e : QEntry) :
    Sim R n { c with reqs := setEntry c.reqs e } { b with reqs := setEntry b.reqs (renEntry R.f e) } := by
  obtain ⟨rfl, h1, h2, h3⟩ := h
  refine ⟨?_, h1, h2, setEntry_low h3.reqs, h3.resps, h3.log⟩
  show ({ R.ep c with reqs := setEntry (c.reqs.map (renEntry R.f)) (renEntry R.f e) } : Ep) = _
  rw [setEntry_ren]
  rfl

theorem Sim.setResp {c b : Ep} (h : Sim R n c b) (e : QEntry) :
    Sim R n { c with resps := setEntry c.resps e } { b with resps := setEntry b.resps (renEntry R.f e) } := by
  obtain ⟨rfl, h1, h2, h3⟩ := h
  refine ⟨?_, h1, h2, h3.reqs, setEntry_low h3.resps, h3.log⟩
  show ({ R.ep c with resps := setEntry (c.resps.map (renEntry R.f)) (renEntry R.f e) } : Ep) = _
  rw [setEntry_ren]
  rfl

theorem queueDel_ren {c b : Ep} (h : Sim R n c b) {id} (hid : id < n) : Same1 R n (c.queueDel id) (b.queueDel (R.f id)) := by
  unfold Ep.queueDel
  have e1 : (((b.reqs ++ b.resps).filter fun e => e.id = R.f id).map fun e => e.m.ctx.uses) =
      (((c.reqs ++ c.resps).filter fun e => e.id = id).map fun e => e.m.ctx.uses) := by
    rw [h.eq]
    show (((c.reqs.map (renEntry R.f) ++ c.resps.map (renEntry R.f)).filter fun e => e.id = R.f id).map fun e => e.m.ctx.uses) = _
    rw [← List.map_append, filterEq_ren, List.map_map]
    rfl
  rw [e1]
  refine RR.bind (releaseUses_ren _ h) ?_
  rintro a b ⟨rfl, h1, h2, h3⟩
  refine ⟨?_, h1, h2, fun e he => h3.reqs e (List.mem_filter.1 he).1, fun e he => h3.resps e (List.mem_filter.1 he).1, ?_⟩
  · show ({ R.ep a with reqs := (a.reqs.map (renEntry R.f)).filter fun e => e.id ≠ R.f id
                        resps := (a.resps.map (renEntry R.f)).filter fun e => e.id ≠ R.f id
                        log := .freed (R.f id) :: (R.ep a).log } : Ep) = _
    rw [filter_ren, filter_ren]
    rfl
  · intro e he
    rcases List.mem_cons.1 he with rfl | he
    · exact Nat.lt_of_lt_of_le hid h2
    · exact h3.log e he

theorem retrans_ren {c b : Ep} (h : Sim R n c b) {e io} (he : e.id < n) : Same2 R n (c.retrans e io) (b.retrans (renEntry R.f e) io) := by
  unfold Ep.retrans
  refine RR.ite Iff.rfl ⟨h, rfl⟩ ?_
  refine RR.bind (sendMsg_ren (why := .retrans) h trivial (Nat.lt_of_lt_of_le he h.n)) ?_
  rintro ⟨a1, m1, rc1⟩ ⟨b1, m2, rc2⟩ ⟨h1, h2⟩
  cases h2
  dsimp only at h1 ⊢
  cases rc1 with
  | some x => exact ⟨h1.setReq _, rfl⟩
  | none =>
    have e1 : b1.now = a1.now := by rw [h1.eq]; rfl
    have e2 : b1.t1 = a1.t1 := by rw [h1.eq]; rfl
    have := h1.setReq { e with m := m1, n1 := e.n1 - 1, timer := some (a1.now + a1.t1) }
    refine ⟨?_, rfl⟩
    have e3 : ({ renEntry R.f e with m := m1, n1 := (renEntry R.f e).n1 - 1, timer := some (b1.now + b1.t1) } : QEntry) =
        renEntry R.f { e with m := m1, n1 := e.n1 - 1, timer := some (a1.now + a1.t1) } := by rw [e1, e2]; rfl
    dsimp only at e3 ⊢
    rw [e3]
    exact this

theorem reqTimer_ren {c b : Ep} (h : Sim R n c b) {id io} {g g' : Ep → Res Ep} (hg : ∀ k c b, Sim R k c b → Same1 R k (g c) (g' b)) :
    Same1 R n (c.reqTimer id io g) (b.reqTimer (R.f id) io g') := by
  unfold Ep.reqTimer
  have hf : (b.reqs.find? fun e => e.id = R.f id) = (c.reqs.find? fun e => e.id = id).map (renEntry R.f) := by
    rw [h.eq]; exact find_ren R _ _
  rw [hf]
  cases hc : c.reqs.find? fun e => e.id = id with
  | none => exact h
  | some e =>
    have hid : e.id = id := by simpa using List.find?_some hc
    have hlt := h.low.reqs e (List.mem_of_find?_eq_some hc)
    rw [hid] at hlt
    have hnow : b.now = c.now := by rw [h.eq]; rfl
    refine RR.ite (by rw [hnow]; rfl) h (RR.ite Iff.rfl trivial ?_)
    refine Same1.weaken (n := c.nextId) h.n ?_
    have hr := retrans_ren (io := io) (((h.weaken (Nat.le_refl _)).setReq { e with timer := none })) (e := { e with timer := none })
      (by rw [show ({ e with timer := none } : QEntry).id = id from hid]; exact hlt)
    refine RR.bind hr ?_
    rintro ⟨a1, keep1⟩ ⟨b1, keep2⟩ ⟨h1, h2⟩
    cases h2
    dsimp only at h1 ⊢
    refine RR.ite Iff.rfl h1 ?_
    have hmid : RR (Sim R c.nextId)
        (if e.m.hasCb then (a1.note (.respCb id none a1.now)).using id fun ep =>
            if e.m.ctx.respCb = some Cb.assoc then ep.assocResp e.m.ctx none .ok else g ep
          else .ok a1)
        (if e.m.hasCb then (b1.note (.respCb (R.f id) none b1.now)).using (R.f id) fun ep =>
            if e.m.ctx.respCb = some Cb.assoc then ep.assocResp e.m.ctx none .ok else g' ep
          else .ok b1) := by
      refine RR.ite Iff.rfl ?_ h1
      have e1 : b1.now = a1.now := by rw [h1.eq]; rfl
      rw [e1]
      refine using_ren (h1.note (e := .respCb id none _) ⟨Nat.lt_of_lt_of_le hlt h1.n, fun _ h => by cases h⟩) fun c b h => ?_
      exact RR.ite Iff.rfl (assocResp_ren h fun _ _ h => h) (hg _ _ _ h)
    refine RR.bind hmid fun a2 b2 h2 => ?_
    have e2 : (b2.reqs.any fun e => e.id = R.f id) = a2.reqs.any fun e => e.id = id := by
      rw [h2.eq]; exact any_ren R _ _
    exact RR.ite (by rw [e2]) (queueDel_ren h2 hlt) trivial

theorem respTimer_ren {c b : Ep} (h : Sim R n c b) {id} : Same1 R n (c.respTimer id) (b.respTimer (R.f id)) := by
  unfold Ep.respTimer
  have hf : (b.resps.find? fun e => e.id = R.f id) = (c.resps.find? fun e => e.id = id).map (renEntry R.f) := by
    rw [h.eq]; exact find_ren R _ _
  rw [hf]
  cases hc : c.resps.find? fun e => e.id = id with
  | none => exact h
  | some e =>
    have hid : e.id = id := by simpa using List.find?_some hc
    have hlt := h.low.resps e (List.mem_of_find?_eq_some hc)
    rw [hid] at hlt
    have hnow : b.now = c.now := by rw [h.eq]; rfl
    refine RR.ite (by rw [hnow]; rfl) h (RR.ite Iff.rfl trivial ?_)
    exact Same1.weaken h.n (queueDel_ren (h.weaken (Nat.le_refl _)) hlt)

/-! ### Reception -/

theorem rxUses_ren {c b : Ep} (h : Sim R n c b) (r) : b.rxUses r = c.rxUses r := by rw [h.eq]; rfl

theorem setCtx_ren {c b : Ep} (h : Sim R n c b) {k req r} (hk : k < n) (hq : ∀ i, req = some i → i < n) :
    Same1 R n (c.setCtx k req r) (b.setCtx (R.f k) (req.map R.f) r) := by
  unfold Ep.setCtx
  have e : b.cfg = c.cfg := by rw [h.eq]; rfl
  rw [rxUses_ren h]
  refine RR.ite (by rw [e]) (run_ren _ (Sim.takeUses (h.note (e := .setCtx k req) ⟨?_, fun i hi => ?_⟩) _)) h
  · exact Nat.lt_of_lt_of_le hk h.n
  · exact Nat.lt_of_lt_of_le (hq i hi) h.n

theorem dispatch_ren {c b : Ep} (h : Sim R n c b) {k req r} (hk : k < n) (hq : ∀ i, req = some i → i < n) :
    Same1 R n (c.dispatch k req r) (b.dispatch (R.f k) (req.map R.f) r) := by
  unfold Ep.dispatch
  refine run_ren _ (h.note (e := .dispatch k req) ⟨?_, fun i hi => ?_⟩)
  · exact Nat.lt_of_lt_of_le hk h.n
  · exact Nat.lt_of_lt_of_le (hq i hi) h.n

theorem heartbeatReply_ren {c b : Ep} (h : Sim R n c b) {k m io} (hk : k < n) :
    Same1 R n (c.heartbeatReply k m io) (b.heartbeatReply (R.f k) m io) := by
  unfold Ep.heartbeatReply
  refine RR.ite Iff.rfl ?_ h
  obtain ⟨hs, hid⟩ := h.next
  have hn := h.n
  have hr : b.rts = c.rts := by rw [h.eq]; rfl
  rw [hid] at hs ⊢
  have := sendMsg_ren (why := .heartbeatReply k) (m := heartbeatResp m c.rts) (io := io) hs
    (Nat.lt_succ_of_lt (Nat.lt_of_lt_of_le hk hn)) hs.n
  have e : heartbeatResp m b.rts = heartbeatResp m c.rts := by rw [hr]
  rw [e]
  refine RR.bind this ?_
  rintro ⟨a1, m1, rc1⟩ ⟨b1, m2, rc2⟩ ⟨h1, -⟩
  exact h1.weaken (Nat.le_trans (Nat.le_succ_of_le hn) h1.n)

theorem handleDuplicate_ren {c b : Ep} (h : Sim R n c b) {k prev r} (hk : k < n) :
    Same1 R n (c.handleDuplicate k prev r) (b.handleDuplicate (R.f k) (renEntry R.f prev) r) := by
  unfold Ep.handleDuplicate
  refine RR.bind (using_ren h fun c b h => setCtx_ren (req := none) h hk fun _ h => by cases h) fun a1 b1 h1 => ?_
  have hf : (b1.resps.find? fun e => e.id = (renEntry R.f prev).id) = (a1.resps.find? fun e => e.id = prev.id).map (renEntry R.f) := by
    rw [h1.eq]; exact find_ren R _ _
  rw [hf]
  cases hc : a1.resps.find? fun e => e.id = prev.id with
  | none => trivial
  | some e =>
    have hlt := h1.low.resps e (List.mem_of_find?_eq_some hc)
    refine RR.bind (sendMsg_ren (why := .cachedReply k) h1 (Nat.lt_of_lt_of_le hk h1.n) hlt) ?_
    rintro ⟨a2, m1, rc1⟩ ⟨b2, m2, rc2⟩ ⟨h2, h3⟩
    cases h3
    exact h2.setResp { e with m := m1 }

theorem respCall_ren {c b : Ep} (h : Sim R n c b) {m prev r} :
    Same2 R n (c.respCall m prev r) (b.respCall m (renEntry R.f prev) r) := by
  unfold Ep.respCall
  refine RR.ite Iff.rfl ?_ ?_
  · have hf : (b.reqs.find? fun e => e.id = (renEntry R.f prev).id) = (c.reqs.find? fun e => e.id = prev.id).map (renEntry R.f) := by
      rw [h.eq]; exact find_ren R _ _
    rw [hf]
    cases hc : c.reqs.find? fun e => e.id = prev.id with
    | none => trivial
    | some e =>
      exact RR.bind (assocResp_ren h fun _ _ h => run_ren _ h) fun _ _ h => ⟨h, rfl⟩
  · exact RR.bind (run_ren _ h) fun _ _ h => ⟨h, rfl⟩

theorem handleResponse_ren {c b : Ep} (h : Sim R n c b) {k m prev r} (hk : k < n) (hp : prev.id < n) :
    Same1 R n (c.handleResponse k m prev r) (b.handleResponse (R.f k) m (renEntry R.f prev) r) := by
  unfold Ep.handleResponse
  refine RR.bind (using_ren h fun c b h => ?_) fun a1 b1 h1 => ?_
  · have hd : ∀ {c b}, Sim R n c b → Same1 R n (c.dispatch k (some prev.id) r) (b.dispatch (R.f k) (some (R.f prev.id)) r) :=
      fun h => dispatch_ren (req := some prev.id) h hk fun i hi => by cases hi; exact hp
    refine RR.bind (setCtx_ren (req := some prev.id) h hk fun i hi => by cases hi; exact hp) fun a1 b1 h1 => ?_
    refine RR.ite Iff.rfl ?_ (hd h1)
    have hnow : b1.now = a1.now := by rw [h1.eq]; rfl
    rw [hnow]
    refine RR.bind (respCall_ren (h1.note (e := .respCb prev.id (some k) _) ⟨Nat.lt_of_lt_of_le hp h1.n, fun i hi => ?_⟩)) ?_
    · cases hi; exact Nat.lt_of_lt_of_le hk h1.n
    rintro ⟨a2, rc1⟩ ⟨b2, rc2⟩ ⟨h2, h3⟩
    cases h3
    exact RR.ite Iff.rfl h2 (hd h2)
  · have e2 : (b1.reqs.any fun e => e.id = (renEntry R.f prev).id) = a1.reqs.any fun e => e.id = prev.id := by
      rw [h1.eq]; exact any_ren R _ _
    exact RR.ite (by rw [e2]) (queueDel_ren h1 hp) trivial

theorem queueFind_ren (R : Ren) (q : List QEntry) (m) : queueFind (q.map (renEntry R.f)) m = (queueFind q m).map (renEntry R.f) := by
  unfold queueFind
  rw [List.find?_map]
  rfl

theorem handleMsg_ren {c b : Ep} (h : Sim R n c b) {k m r} (hk : k < n) :
    Same1 R n (c.handleMsg k m r) (b.handleMsg (R.f k) m r) := by
  unfold Ep.handleMsg
  have hq : queueFind (if m.isResponse then b.reqs else b.resps) m = (queueFind (if m.isResponse then c.reqs else c.resps) m).map (renEntry R.f) := by
    rw [h.eq, ← queueFind_ren]
    congr 1
    split <;> rfl
  rw [hq]
  cases hf : queueFind (if m.isResponse then c.reqs else c.resps) m with
  | none =>
    exact RR.bind (setCtx_ren (req := none) h hk fun _ h => by cases h) fun _ _ h =>
      dispatch_ren (req := none) h hk fun _ h => by cases h
  | some prev =>
    have hm : prev ∈ (if m.isResponse then c.reqs else c.resps) := List.mem_of_find?_eq_some hf
    have hlt : prev.id < c.nextId := by
      split at hm
      · exact h.low.reqs _ hm
      · exact h.low.resps _ hm
    refine RR.ite Iff.rfl ?_ (handleDuplicate_ren h hk)
    exact Same1.weaken h.n (handleResponse_ren (h.weaken (Nat.le_refl _)) (Nat.lt_of_lt_of_le hk h.n) hlt)

theorem handleRx_ren {c b : Ep} (h : Sim R n c b) {m r} : Same1 R n (c.handleRx m r) (b.handleRx m r) := by
  unfold Ep.handleRx
  obtain ⟨hs, hid⟩ := h.next
  have hn := h.n
  generalize hk : c.nextId = k at *
  dsimp only
  rw [hid] at hs ⊢
  refine Same1.weaken (n := k + 1) (Nat.le_succ_of_le hn) ?_
  refine RR.bind (heartbeatReply_ren (hs.note (e := .received k m) hs.n) (Nat.lt_succ_self _)) fun a1 b1 h1 => ?_
  refine RR.bind (handleMsg_ren h1 (Nat.lt_succ_self _)) fun a2 b2 h2 => ?_
  rw [rxUses_ren h2]
  exact releaseUses_ren _ h2

theorem handleAll_ren {remote} : ∀ (l : List Rx) (rs : List React) {c b : Ep}, Sim R n c b →
    Same1 R n (c.handleAll remote l rs) (b.handleAll remote l rs)
  | [], _, _, _, h => h
  | ⟨_, none⟩ :: l, rs, _, _, h => handleAll_ren l rs h
  | ⟨_, some _⟩ :: l, rs, _, _, h => RR.bind (handleRx_ren h) fun _ _ h => handleAll_ren l rs.tail h

theorem rxDatagram_ren {c b : Ep} (h : Sim R n c b) {remote d rs} : Same1 R n (c.rxDatagram remote d rs) (b.rxDatagram remote d rs) := by
  unfold Ep.rxDatagram
  have e1 : b.sock = c.sock := by rw [h.eq]; rfl
  have e2 : b.cfg = c.cfg := by rw [h.eq]; rfl
  refine RR.ite (by rw [e1]) h (RR.ite (by rw [e2]) trivial ?_)
  cases rxBundle ((d.take allocSize).length + 1) (.received (d.take allocSize)) (List.replicate (allocSize - (d.take allocSize).length) 0) with
  | ok l => exact handleAll_ren l rs h
  | err e => exact rfl
  | abort => trivial
  | ub => trivial
  | diverge => trivial

/-! ### Histories -/

theorem act_ren {c b : Ep} (h : Sim R n c b) (a : Act) : Same1 R n (a.step c) (a.step b) := by
  cases a with
  | app a => exact run_ren a h
  | rx remote d rs => exact rxDatagram_ren h
  | advance ms =>
    obtain ⟨rfl, h1, h2, h3⟩ := h
    exact ⟨rfl, h1, h2, h3.reqs, h3.resps, h3.log⟩
  | reqTimer i io cb =>
    unfold Act.step
    dsimp only
    have : b.reqs[i]? = c.reqs[i]?.map (renEntry R.f) := by rw [h.eq]; exact List.getElem?_map ..
    rw [this]
    cases c.reqs[i]? with
    | none => exact h
    | some e => exact reqTimer_ren h fun _ _ _ h => run_ren cb h
  | respTimer i =>
    unfold Act.step
    dsimp only
    have : b.resps[i]? = c.resps[i]?.map (renEntry R.f) := by rw [h.eq]; exact List.getElem?_map ..
    rw [this]
    cases c.resps[i]? with
    | none => exact h
    | some e => exact respTimer_ren h
  | peerTimer fi io => exact peerTimer_ren h

end Verif
