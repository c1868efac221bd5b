/-
Functions of the endpoint do the same to endpoints that are alike.
-/
import Verif.SpecAlike

namespace Verif
open Spec

abbrev EpRel : Res Ep → Res Ep → Prop := Res.Alike Ep.Alike

theorem Spec.Res.Alike.bind {α β : Type} {R : α → α → Prop} {S : β → β → Prop} {x y : Res α} {f g : α → Res β}
    (h : Res.Alike R x y) (hf : ∀ a b, R a b → Res.Alike S (f a) (g b)) : Res.Alike S (x.bind f) (y.bind g) := by
  cases x <;> cases y <;> first | exact hf _ _ h | exact h | exact h.elim

theorem Spec.Ep.Alike.ex {ep ep' : Ep} (h : Ep.Alike ep ep') : ∃ l, All2 Event.Alike ep.log l ∧ ep' = { ep with log := l } :=
  ⟨_, h.log, h.state⟩

theorem Event.alike_refl : ∀ (l : List Event), All2 Event.Alike l l
  | [] => .nil
  | e :: l => .cons (.same e) (Event.alike_refl l)

theorem Spec.Ep.Alike.refl (ep : Ep) : Ep.Alike ep ep := ⟨rfl, Event.alike_refl _⟩

theorem Spec.Ep.Alike.mk' {ep : Ep} {l} (h : All2 Event.Alike ep.log l) : Ep.Alike ep { ep with log := l } := ⟨rfl, h⟩

theorem Spec.Ep.Alike.note {ep ep' : Ep} (h : Ep.Alike ep ep') (e : Event) : Ep.Alike (ep.note e) (ep'.note e) := by
  obtain ⟨l, hl, rfl⟩ := h.ex
  exact ⟨rfl, .cons (.same e) hl⟩

theorem Spec.Ep.Alike.peer {ep ep' : Ep} (h : Ep.Alike ep ep') (fi : Nat) : ep'.peer? fi = ep.peer? fi := by
  rw [h.state]; rfl

theorem Spec.Ep.Alike.peerChg {ep ep' : Ep} (h : Ep.Alike ep ep') (fi new) : Ep.Alike (ep.peerChg fi new) (ep'.peerChg fi new) := by
  obtain ⟨l, hl, rfl⟩ := h.ex
  unfold Ep.peerChg
  rw [h.peer]
  cases ep.peer? fi with
  | none => exact .mk' hl
  | some p =>
    dsimp only
    split
    · exact ⟨rfl, .cons (.same _) hl⟩
    · exact .mk' hl

theorem Spec.Ep.Alike.releaseUses {ep ep' : Ep} (h : Ep.Alike ep ep') (us) : EpRel (ep.releaseUses us) (ep'.releaseUses us) := by
  induction us generalizing ep ep' with
  | nil => exact h
  | cons u us ih =>
    obtain ⟨l, hl, rfl⟩ := h.ex
    simp only [Ep.releaseUses]
    split
    · trivial
    · exact ih ⟨rfl, hl⟩

theorem Spec.Ep.Alike.takeUses {ep ep' : Ep} (h : Ep.Alike ep ep') (us) : Ep.Alike (ep.takeUses us) (ep'.takeUses us) := by
  obtain ⟨l, hl, rfl⟩ := h.ex
  exact ⟨rfl, hl⟩

/-- Callbacks that do the same to endpoints that are alike. -/
abbrev CbRel (f g : Ep → Res Ep) : Prop := ∀ a b, Ep.Alike a b → EpRel (f a) (g b)

theorem accepted_alike {m m' : PMsg} (h : RequestAccepted m' ↔ RequestAccepted m) : m'.accepted = m.accepted := by
  have key : ∀ m : PMsg, m.accepted = true ↔ RequestAccepted m := by
    intro m
    unfold PMsg.accepted RequestAccepted
    constructor
    · intro h
      split at h
      · rename_i c l hc
        simp only [decide_eq_true_eq] at h
        exact ⟨l, by rw [hc, h]⟩
      · cases h
    · rintro ⟨l, hl⟩
      rw [hl]
      rfl
  rw [Bool.eq_iff_iff, key, key]
  exact h

theorem Spec.Ep.Alike.assocResp {ep ep' : Ep} (h : Ep.Alike ep ep') (ctx) {resp resp' : Option PMsg}
    (hr : resp.isSome = resp'.isSome ∧ ∀ m m', resp = some m → resp' = some m' → m'.accepted = m.accepted) {f g}
    (hf : CbRel f g) : EpRel (ep.assocResp ctx resp f) (ep'.assocResp ctx resp' g) := by
  obtain ⟨l, hl, rfl⟩ := h.ex
  unfold Ep.assocResp
  cases ctx.peerFi with
  | none => trivial
  | some fi =>
    dsimp only
    rw [h.peer]
    cases ep.peer? fi with
    | none => trivial
    | some p =>
      dsimp only
      have h0 : Ep.Alike ep { ep with log := l } := .mk' hl
      match resp, resp', hr with
      | none, none, _ => exact h0.peerChg _ _
      | some m, some m', ⟨_, hm⟩ =>
        dsimp only
        rw [hm m m' rfl rfl]
        split
        · exact h0.peerChg _ _
        · split
          · exact h0
          · split
            · exact hf _ _ ((h0.peerChg _ _).note _)
            · exact h0.peerChg _ _
      | none, some _, ⟨h, _⟩ => cases h
      | some _, none, ⟨h, _⟩ => cases h

/-- Results of sending. -/
abbrev SentRel : Ep × PMsg × Option Errno → Ep × PMsg × Option Errno → Prop := fun a b => Ep.Alike a.1 b.1 ∧ b.2 = a.2

theorem Spec.Ep.Alike.sendMsg {ep ep' : Ep} (h : Ep.Alike ep ep') (why id m io) :
    Res.Alike SentRel (ep.sendMsg why id m io) (ep'.sendMsg why id m io) := by
  obtain ⟨l, hl, rfl⟩ := h.ex
  unfold Ep.sendMsg
  cases m.encode with
  | ok o =>
    dsimp only
    split
    · exact ⟨⟨rfl, .cons (.same _) hl⟩, rfl⟩
    · exact ⟨.mk' hl, rfl⟩
  | err e _ => exact ⟨.mk' hl, rfl⟩
  | _ => trivial

theorem Spec.Ep.Alike.using {ep ep' : Ep} (h : Ep.Alike ep ep') (id) {f g} (hf : CbRel f g) : EpRel (ep.using id f) (ep'.using id g) := by
  obtain ⟨l, hl, rfl⟩ := h.ex
  unfold Ep.using
  refine Spec.Res.Alike.bind (hf _ _ ⟨rfl, hl⟩) fun a b hab => ?_
  obtain ⟨l', hl', rfl⟩ := hab.ex
  exact ⟨rfl, hl'⟩

theorem Spec.Ep.Alike.failCb {ep ep' : Ep} (h : Ep.Alike ep ep') (id m) {f g} (hf : CbRel f g) :
    EpRel (ep.failCb id m f) (ep'.failCb id m g) := by
  unfold Ep.failCb
  split
  · have : ep'.now = ep.now := by rw [h.state]
    rw [this]
    exact (h.note _).using id hf
  · exact h

theorem Spec.Ep.Alike.queueAdd {ep ep' : Ep} (h : Ep.Alike ep ep') (id m) {f g} (hf : CbRel f g) :
    EpRel (ep.queueAdd id m f) (ep'.queueAdd id m g) := by
  obtain ⟨l, hl, rfl⟩ := h.ex
  have h0 : Ep.Alike ep { ep with log := l } := .mk' hl
  unfold Ep.queueAdd
  dsimp only
  split
  · exact h0.failCb id m hf
  · split
    · exact ⟨rfl, hl⟩
    · exact ⟨rfl, hl⟩

theorem Spec.Ep.Alike.tx {ep ep' : Ep} (h : Ep.Alike ep ep') (m io) {f g} (hf : CbRel f g) : EpRel (ep.tx m io f) (ep'.tx m io g) := by
  obtain ⟨l, hl, rfl⟩ := h.ex
  unfold Ep.tx
  dsimp only
  have key : ∀ (e : Ep) (l : List Event) (m : PMsg) id, All2 Event.Alike e.log l → EpRel
      (((e.note (.passed id e.n1 e.t1 m)).sendMsg .tx id m io).bind fun (ep, m, rc) =>
        match rc with
        | some e =>
          (ep.failCb id m f).bind fun ep =>
          (ep.releaseUses m.ctx.uses).bind fun ep =>
          .ok ((ep.note (.freed id)).note (.returned id (some e)))
        | none =>
          (ep.queueAdd id m f).bind fun ep => .ok (ep.note (.returned id none)))
      ((({ e with log := l }.note (.passed id e.n1 e.t1 m)).sendMsg .tx id m io).bind fun (ep, m, rc) =>
        match rc with
        | some e =>
          (ep.failCb id m g).bind fun ep =>
          (ep.releaseUses m.ctx.uses).bind fun ep =>
          .ok ((ep.note (.freed id)).note (.returned id (some e)))
        | none =>
          (ep.queueAdd id m g).bind fun ep => .ok (ep.note (.returned id none))) := by
    intro e l m id hl
    have h0 : Ep.Alike e { e with log := l } := .mk' hl
    refine Spec.Res.Alike.bind ((h0.note _).sendMsg _ _ _ _) ?_
    rintro ⟨a, m1, rc⟩ ⟨b, m2, rc'⟩ ⟨hab, he⟩
    cases he
    dsimp only at hab ⊢
    cases rc with
    | some e =>
      refine Spec.Res.Alike.bind (hab.failCb id m1 hf) fun a b hab => ?_
      refine Spec.Res.Alike.bind (hab.releaseUses _) fun a b hab => ?_
      exact (hab.note _).note _
    | none =>
      refine Spec.Res.Alike.bind (hab.queueAdd id m1 hf) fun a b hab => ?_
      exact hab.note _
  split
  · exact key { ep with nextId := ep.nextId + 1 } l _ _ hl
  · exact key { ep with nextId := ep.nextId + 1, seq := nextSeqNr ep.seq, draws := ep.draws + 1 } l _ _ hl

theorem Spec.Ep.Alike.txDirect {ep ep' : Ep} (h : Ep.Alike ep ep') (m io why) : EpRel (ep.txDirect m io why) (ep'.txDirect m io why) := by
  obtain ⟨l, hl, rfl⟩ := h.ex
  unfold Ep.txDirect
  have h0 : Ep.Alike { ep with nextId := ep.nextId + 1 } { ep with nextId := ep.nextId + 1, log := l } := ⟨rfl, hl⟩
  refine Spec.Res.Alike.bind (h0.sendMsg _ _ _ _) ?_
  rintro ⟨a, m1, rc⟩ ⟨b, m2, rc'⟩ ⟨hab, he⟩
  exact hab

theorem Spec.Ep.Alike.txHeartbeat {ep ep' : Ep} (h : Ep.Alike ep ep') (r io) : EpRel (ep.txHeartbeat r io) (ep'.txHeartbeat r io) := by
  obtain ⟨l, hl, rfl⟩ := h.ex
  unfold Ep.txHeartbeat Ep.draw
  dsimp only
  exact Spec.Ep.Alike.txDirect ⟨rfl, hl⟩ _ _ _

theorem Event.alike_append {a b : List Event} (h : All2 Event.Alike a b) (l : List Event) : All2 Event.Alike (l ++ a) (l ++ b) := by
  induction l with
  | nil => exact h
  | cons e l ih => exact .cons (.same e) ih

theorem Spec.Ep.Alike.close {ep ep' : Ep} (h : Ep.Alike ep ep') : EpRel ep.close ep'.close := by
  obtain ⟨l, hl, rfl⟩ := h.ex
  have h0 : Ep.Alike ep { ep with log := l } := .mk' hl
  unfold Ep.close
  dsimp only
  split
  · trivial
  · refine Spec.Res.Alike.bind (h0.releaseUses _) fun a b hab => ?_
    obtain ⟨l', hl', rfl⟩ := hab.ex
    exact ⟨rfl, Event.alike_append hl' _⟩

theorem Spec.Ep.Alike.bind {ep ep' : Ep} (h : Ep.Alike ep ep') (ok) : EpRel (ep.bind ok) (ep'.bind ok) := by
  unfold Ep.bind
  refine Res.Alike.bind h.close fun a b hab => ?_
  obtain ⟨l', hl', rfl⟩ := hab.ex
  exact ⟨rfl, hl'⟩

theorem Spec.Ep.Alike.invalidate {ep ep' : Ep} (h : Ep.Alike ep ep') (fi) : Ep.Alike (ep.invalidate fi) (ep'.invalidate fi) := by
  obtain ⟨l, hl, rfl⟩ := h.ex
  exact ⟨rfl, .cons (.same _) hl⟩

theorem Spec.Ep.Alike.newPeer {ep ep' : Ep} (h : Ep.Alike ep ep') (fi r) : Ep.Alike (ep.newPeer fi r) (ep'.newPeer fi r) := by
  obtain ⟨l, hl, rfl⟩ := h.ex
  unfold Ep.newPeer
  rw [h.peer]
  cases ep.peer? fi <;> exact ⟨rfl, hl⟩

theorem Spec.Ep.Alike.setAssocCb {ep ep' : Ep} (h : Ep.Alike ep ep') (fi cb) : Ep.Alike (ep.setAssocCb fi cb) (ep'.setAssocCb fi cb) := by
  obtain ⟨l, hl, rfl⟩ := h.ex
  unfold Ep.setAssocCb
  rw [h.peer]
  cases ep.peer? fi
  · exact ⟨rfl, hl⟩
  · exact ⟨rfl, .cons (.same _) hl⟩

theorem txFailed_alike {l l' : List Event} (h : All2 Event.Alike l l') : txFailed l' = txFailed l := by
  cases h with
  | nil => rfl
  | cons h _ =>
    cases h with
    | same e => unfold txFailed; split <;> simp_all
    | received _ => rfl
    | heartbeatReply => rfl

theorem Spec.Ep.Alike.assocStart {ep ep' : Ep} (h : Ep.Alike ep ep') (fi p io) : EpRel (ep.assocStart fi p io) (ep'.assocStart fi p io) := by
  unfold Ep.assocStart
  split
  · exact h
  · have hrts : (ep'.peerChg fi .waitAssoc).rts = (ep.peerChg fi .waitAssoc).rts := by rw [(h.peerChg fi .waitAssoc).state]
    dsimp only
    rw [hrts]
    refine Spec.Res.Alike.bind (((h.peerChg fi .waitAssoc).takeUses _).tx _ io fun a b hab =>
      hab.assocResp _ ⟨rfl, fun m m' h => by cases h⟩ fun a b hab => hab) fun a b hab => ?_
    show Ep.Alike _ _
    rw [txFailed_alike hab.log]
    split
    · exact hab.peerChg _ _
    · exact hab

theorem Spec.Ep.Alike.associate {ep ep' : Ep} (h : Ep.Alike ep ep') (fi io) : EpRel (ep.associate fi io) (ep'.associate fi io) := by
  unfold Ep.associate
  have hp : ep'.peer? fi = ep.peer? fi := by rw [h.state]; rfl
  rw [hp]
  cases ep.peer? fi with
  | none => exact h
  | some p =>
    dsimp only
    split
    · exact h.assocStart _ _ _
    · exact h

theorem Spec.Ep.Alike.peerTimer {ep ep' : Ep} (h : Ep.Alike ep ep') (fi io) : EpRel (ep.peerTimer fi io) (ep'.peerTimer fi io) := by
  obtain ⟨l, hl, rfl⟩ := h.ex
  unfold Ep.peerTimer
  rw [h.peer]
  cases ep.peer? fi with
  | none => exact .mk' hl
  | some p =>
    dsimp only
    split
    · exact .mk' hl
    · split
      · exact Spec.Ep.Alike.assocStart ⟨rfl, hl⟩ _ _ _
      · exact ⟨rfl, hl⟩

theorem App.run_alike (a : App) : CbRel a.run a.run := by
  induction a with
  | done => intro a b h; exact h
  | tx m io onFail rest ih1 ih2 =>
    intro a b h
    simp only [App.run]
    split
    · trivial
    · exact Spec.Res.Alike.bind ((h.takeUses _).tx _ _ ih1) ih2
  | txData m io rest ih => intro a b h; exact Spec.Res.Alike.bind (h.txDirect _ _ _) ih
  | heartbeat r io rest ih => intro a b h; exact Spec.Res.Alike.bind (h.txHeartbeat _ _) ih
  | invalidate fi rest ih => intro a b h; exact ih _ _ (h.invalidate _)
  | setSeq s rest ih => intro a b h; obtain ⟨l, hl, rfl⟩ := h.ex; exact ih _ _ ⟨rfl, hl⟩
  | setTimers n1 t1 kr rest ih => intro a b h; obtain ⟨l, hl, rfl⟩ := h.ex; exact ih _ _ ⟨rfl, .cons (.same _) hl⟩
  | close rest ih => intro a b h; exact Res.Alike.bind h.close ih
  | bind ok rest ih => intro a b h; exact Spec.Res.Alike.bind (h.bind _) ih
  | setT26 t rest ih => intro a b h; obtain ⟨l, hl, rfl⟩ := h.ex; exact ih _ _ ⟨rfl, .cons (.same _) hl⟩
  | newPeer fi r rest ih => intro a b h; exact ih _ _ (h.newPeer _ _)
  | setAssocCb fi cb rest ih => intro a b h; exact ih _ _ (h.setAssocCb _ _)
  | associate fi io rest ih => intro a b h; exact Spec.Res.Alike.bind (h.associate _ _) ih

theorem Spec.Ep.Alike.queueDel {ep ep' : Ep} (h : Ep.Alike ep ep') (id) : EpRel (ep.queueDel id) (ep'.queueDel id) := by
  obtain ⟨l, hl, rfl⟩ := h.ex
  have h0 : Ep.Alike ep { ep with log := l } := .mk' hl
  unfold Ep.queueDel
  refine Spec.Res.Alike.bind (h0.releaseUses _) fun a b hab => ?_
  obtain ⟨l', hl', rfl⟩ := hab.ex
  exact ⟨rfl, .cons (.same _) hl'⟩

theorem Spec.Ep.Alike.retrans {ep ep' : Ep} (h : Ep.Alike ep ep') (e io) :
    Res.Alike (fun a b => Ep.Alike a.1 b.1 ∧ b.2 = a.2) (ep.retrans e io) (ep'.retrans e io) := by
  unfold Ep.retrans
  split
  · exact ⟨h, rfl⟩
  · refine Spec.Res.Alike.bind (h.sendMsg _ _ _ _) ?_
    rintro ⟨a, m1, rc⟩ ⟨b, m2, rc'⟩ ⟨hab, he⟩
    cases he
    dsimp only at hab ⊢
    obtain ⟨l', hl', rfl⟩ := hab.ex
    cases rc <;> exact ⟨⟨rfl, hl'⟩, rfl⟩

theorem Spec.Ep.Alike.reqTimer {ep ep' : Ep} (h : Ep.Alike ep ep') (id io) {f g} (hf : CbRel f g) :
    EpRel (ep.reqTimer id io f) (ep'.reqTimer id io g) := by
  obtain ⟨l, hl, rfl⟩ := h.ex
  unfold Ep.reqTimer
  dsimp only
  cases ep.reqs.find? fun e => e.id = id with
  | none => exact .mk' hl
  | some e =>
    dsimp only
    split
    · exact .mk' hl
    split
    · trivial
    have h0 : Ep.Alike { ep with reqs := setEntry ep.reqs { e with timer := none } }
      { ep with reqs := setEntry ep.reqs { e with timer := none }, log := l } := ⟨rfl, hl⟩
    refine Spec.Res.Alike.bind (h0.retrans _ _) ?_
    rintro ⟨a, k⟩ ⟨b, k'⟩ ⟨hab, he⟩
    cases he
    dsimp only at hab ⊢
    split
    · exact hab
    · refine Spec.Res.Alike.bind (R := Ep.Alike) ?_ fun a b hab => ?_
      · split
        · have : b.now = a.now := by rw [hab.state]
          rw [this]
          refine (hab.note _).using id fun a b hab => ?_
          split
          · exact hab.assocResp _ ⟨rfl, fun m m' h => by cases h⟩ fun a b hab => hab
          · exact hf _ _ hab
        · exact hab
      · obtain ⟨l', hl', rfl⟩ := hab.ex
        dsimp only
        split
        · exact Spec.Ep.Alike.queueDel (.mk' hl') _
        · trivial

theorem Spec.Ep.Alike.respTimer {ep ep' : Ep} (h : Ep.Alike ep ep') (id) : EpRel (ep.respTimer id) (ep'.respTimer id) := by
  obtain ⟨l, hl, rfl⟩ := h.ex
  unfold Ep.respTimer
  dsimp only
  cases ep.resps.find? fun e => e.id = id with
  | none => exact .mk' hl
  | some e =>
    dsimp only
    split
    · exact .mk' hl
    split
    · trivial
    · exact Spec.Ep.Alike.queueDel (.mk' hl) _

/-! ### Reception -/

theorem Spec.Ep.Alike.setCtx {ep ep' : Ep} (h : Ep.Alike ep ep') (k req r) : EpRel (ep.setCtx k req r) (ep'.setCtx k req r) := by
  have e1 : ep'.cfg = ep.cfg := by rw [h.state]
  have e2 : ep'.rxUses r = ep.rxUses r := by rw [h.state]; rfl
  unfold Ep.setCtx
  rw [e1, e2]
  split
  · exact App.run_alike _ _ _ ((h.note _).takeUses _)
  · exact h

theorem Spec.Ep.Alike.heartbeatReply {ep ep' : Ep} (h : Ep.Alike ep ep') (k io) {m m' : PMsg} (hm : Spec.Alike m m') :
    EpRel (ep.heartbeatReply k m io) (ep'.heartbeatReply k m' io) := by
  obtain ⟨l, hl, rfl⟩ := h.ex
  unfold Ep.heartbeatReply
  by_cases ht : m.h.type = 1
  · rw [if_pos ht, if_pos (hm.heartbeat.2 ht)]
    unfold Ep.sendMsg heartbeatResp
    rw [hm.seq]
    dsimp only [PMsg.encode]
    cases msgEncode { b := ⟨allocSize, []⟩ } { version := 1, type := 2, seq := m.h.seq } [[Val.leaf (IeVal.u32 ep.rts)]] with
    | ok o =>
      dsimp only
      cases ep.sock
      · exact ⟨rfl, hl⟩
      · exact ⟨rfl, .cons .heartbeatReply hl⟩
    | err e _ => exact ⟨rfl, hl⟩
    | _ => trivial
  · rw [if_neg ht, if_neg fun h => ht (hm.heartbeat.1 h)]
    exact .mk' hl

theorem Spec.Ep.Alike.dispatch {ep ep' : Ep} (h : Ep.Alike ep ep') (k req r) : EpRel (ep.dispatch k req r) (ep'.dispatch k req r) :=
  App.run_alike _ _ _ (h.note _)

theorem Spec.Ep.Alike.handleDuplicate {ep ep' : Ep} (h : Ep.Alike ep ep') (k prev r) :
    EpRel (ep.handleDuplicate k prev r) (ep'.handleDuplicate k prev r) := by
  unfold Ep.handleDuplicate
  refine Spec.Res.Alike.bind (h.using _ fun a b hab => hab.setCtx _ _ _) fun a b hab => ?_
  obtain ⟨l, hl, rfl⟩ := hab.ex
  dsimp only
  cases a.resps.find? fun e => e.id = prev.id with
  | none => trivial
  | some e =>
    refine Spec.Res.Alike.bind ((Spec.Ep.Alike.mk' hl).sendMsg _ _ _ _) ?_
    rintro ⟨a, m1, rc⟩ ⟨b, m2, rc'⟩ ⟨hab, he⟩
    cases he
    dsimp only at hab ⊢
    obtain ⟨l', hl', rfl⟩ := hab.ex
    exact ⟨rfl, hl'⟩

theorem Spec.Ep.Alike.respCall {ep ep' : Ep} (h : Ep.Alike ep ep') {m m' : PMsg} (hm : Spec.Alike m m') (prev r) :
    Res.Alike (fun a b => Ep.Alike a.1 b.1 ∧ b.2 = a.2) (ep.respCall m prev r) (ep'.respCall m' prev r) := by
  obtain ⟨l, hl, rfl⟩ := h.ex
  unfold Ep.respCall
  split
  · dsimp only
    cases ep.reqs.find? fun e => e.id = prev.id with
    | none => trivial
    | some e =>
      dsimp only
      refine Spec.Res.Alike.bind (R := Ep.Alike) ((Spec.Ep.Alike.mk' hl).assocResp _ (resp := some m) (resp' := some m') ⟨rfl, ?_⟩ (App.run_alike _))
        fun a b hab => ⟨hab, rfl⟩
      intro x x' h1 h2
      cases h1; cases h2
      exact accepted_alike hm.accepted
  · exact Spec.Res.Alike.bind (R := Ep.Alike) (App.run_alike _ _ _ (.mk' hl)) fun a b hab => ⟨hab, rfl⟩

theorem Spec.Ep.Alike.handleResponse {ep ep' : Ep} (h : Ep.Alike ep ep') (k) {m m' : PMsg} (hm : Spec.Alike m m') (prev r) :
    EpRel (ep.handleResponse k m prev r) (ep'.handleResponse k m' prev r) := by
  unfold Ep.handleResponse
  refine Spec.Res.Alike.bind (h.using _ fun a b hab => ?_) fun a b hab => ?_
  · refine Spec.Res.Alike.bind (hab.setCtx _ _ _) fun a b hab => ?_
    split
    · have : b.now = a.now := by rw [hab.state]
      rw [this]
      refine Spec.Res.Alike.bind ((hab.note _).respCall hm _ _) ?_
      rintro ⟨a, k⟩ ⟨b, k'⟩ ⟨hab, he⟩
      cases he
      dsimp only at hab ⊢
      split
      · exact hab
      · exact hab.dispatch _ _ _
    · exact hab.dispatch _ _ _
  · obtain ⟨l', hl', rfl⟩ := hab.ex
    dsimp only
    split
    · exact Spec.Ep.Alike.queueDel (.mk' hl') _
    · trivial

theorem queueFind_alike {m m' : PMsg} (hm : Spec.Alike m m') (q) : queueFind q m' = queueFind q m := by
  unfold queueFind
  rw [hm.kind, hm.seq]

theorem Spec.Ep.Alike.handleMsg {ep ep' : Ep} (h : Ep.Alike ep ep') (k) {m m' : PMsg} (hm : Spec.Alike m m') (r) :
    EpRel (ep.handleMsg k m r) (ep'.handleMsg k m' r) := by
  have e1 : ep'.reqs = ep.reqs := by rw [h.state]
  have e2 : ep'.resps = ep.resps := by rw [h.state]
  unfold Ep.handleMsg
  rw [e1, e2, hm.kind, queueFind_alike hm]
  cases queueFind (if m.isResponse = true then ep.reqs else ep.resps) m with
  | some prev =>
    dsimp only
    split
    · exact h.handleResponse _ hm _ _
    · exact h.handleDuplicate _ _ _
  | none => exact Spec.Res.Alike.bind (h.setCtx _ _ _) fun a b hab => hab.dispatch _ _ _

theorem Spec.Ep.Alike.handleRx {ep ep' : Ep} (h : Ep.Alike ep ep') {m m' : PMsg} (hm : Spec.Alike m m') (r) :
    EpRel (ep.handleRx m r) (ep'.handleRx m' r) := by
  have e1 : ep'.nextId = ep.nextId := by rw [h.state]
  unfold Ep.handleRx
  rw [e1]
  refine Spec.Res.Alike.bind (Spec.Ep.Alike.heartbeatReply ?_ _ _ hm) fun a b hab => ?_
  · obtain ⟨l, hl, rfl⟩ := h.ex
    exact ⟨rfl, .cons (.received hm) hl⟩
  · refine Spec.Res.Alike.bind (hab.handleMsg _ hm _) fun a b hab => ?_
    have e2 : b.rxUses r = a.rxUses r := by rw [hab.state]; rfl
    rw [e2]
    exact hab.releaseUses _

theorem Rx.msg_alike (r r' : Sockaddr) (d ies) : Spec.Alike (Rx.msg r d ies) (Rx.msg r' d ies) :=
  ⟨rfl, rfl, .rfl, .rfl⟩

theorem Spec.Ep.Alike.handleAll {ep ep' : Ep} (h : Ep.Alike ep ep') (r r' : Sockaddr) (l rs) :
    EpRel (ep.handleAll r l rs) (ep'.handleAll r' l rs) := by
  induction l generalizing ep ep' rs with
  | nil => exact h
  | cons x l ih =>
    obtain ⟨d, ies⟩ := x
    cases ies with
    | none => exact ih h rs
    | some ies => exact Spec.Res.Alike.bind (h.handleRx (Rx.msg_alike r r' d ies) _) fun a b hab => ih hab _

theorem Spec.Ep.Alike.rxDatagram {ep ep' : Ep} (h : Ep.Alike ep ep') (r r' : Sockaddr) (d rs) :
    EpRel (ep.rxDatagram r d rs) (ep'.rxDatagram r' d rs) := by
  obtain ⟨l, hl, rfl⟩ := h.ex
  unfold Ep.rxDatagram
  dsimp only
  split
  · exact .mk' hl
  split
  · trivial
  cases rxBundle ((d.take allocSize).length + 1) (.received (d.take allocSize))
    (List.replicate (allocSize - (d.take allocSize).length) 0) with
  | ok msgs => exact Spec.Ep.Alike.handleAll (.mk' hl) _ _ _ _
  | _ => first | trivial | rfl

theorem Op.step_alike {op op' : Op} (ho : Op.FromElsewhere op op') {ep ep' : Ep} (h : Ep.Alike ep ep') :
    EpRel (op.step ep) (op'.step ep') := by
  cases ho with
  | rx r r' d rs => exact h.rxDatagram _ _ _ _
  | same =>
    cases op with
    | app a => exact App.run_alike _ _ _ h
    | rx r d rs => exact h.rxDatagram _ _ _ _
    | advance ms => obtain ⟨l, hl, rfl⟩ := h.ex; exact ⟨rfl, hl⟩
    | reqTimer id io f => exact h.reqTimer _ _ (App.run_alike _)
    | respTimer id => exact h.respTimer _
    | peerTimer fi io => exact h.peerTimer _ _

theorem exec_alike {ops ops' : List Op} (ho : All2 Op.FromElsewhere ops ops') : ∀ {ep ep' : Ep}, Ep.Alike ep ep' →
    EpRel (exec ops ep) (exec ops' ep') := by
  induction ho with
  | nil => intro ep ep' h; exact h
  | cons h1 _ ih => intro ep ep' h; exact Spec.Res.Alike.bind (Op.step_alike h1 h) fun a b hab => ih hab

end Verif
