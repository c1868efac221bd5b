/-
Datagrams that do not concern an endpoint do not change what it does: C121.
-/
import Verif.EndpointRen
import Verif.PropsTouch

namespace Verif.Props
open Verif Spec

/-! ### The log of noise -/

/-- Nothing but noise of message `k`. -/
def AddsNoise (k : Nat) (a b : Ep) : Prop := ∃ l, b.log = l ++ a.log ∧ ∀ e ∈ l, OfNoise k e

theorem AddsNoise.refl {k} {a : Ep} : AddsNoise k a a := ⟨[], rfl, fun _ h => by cases h⟩

theorem AddsNoise.trans {k} {a b c : Ep} (h1 : AddsNoise k a b) (h2 : AddsNoise k b c) : AddsNoise k a c := by
  obtain ⟨l1, e1, g1⟩ := h1
  obtain ⟨l2, e2, g2⟩ := h2
  refine ⟨l2 ++ l1, by rw [e2, e1, List.append_assoc], fun e he => ?_⟩
  rcases List.mem_append.1 he with he | he
  · exact g2 e he
  · exact g1 e he

theorem AddsNoise.one {k} {a b : Ep} {e} (h : b.log = e :: a.log) (he : OfNoise k e) : AddsNoise k a b :=
  ⟨[e], h, fun x hx => by rw [List.mem_singleton.1 hx]; exact he⟩

theorem sendMsg_noise {ep ep' : Ep} {why id m io m' rc k} (hw : why = .heartbeatReply k ∨ why = .cachedReply k)
    (h : ep.sendMsg why id m io = .ok (ep', m', rc)) : AddsNoise k ep ep' ∧ ep'.nextId = ep.nextId := by
  unfold Ep.sendMsg at h
  split at h
  · split at h
    · cases h
      refine ⟨.one rfl ?_, rfl⟩
      rcases hw with rfl | rfl <;> rfl
    · cases h; exact ⟨.refl, rfl⟩
  · cases h; exact ⟨.refl, rfl⟩
  · cases h
  · cases h
  · cases h

theorem setCtx_noise {ep ep' : Ep} {k r} (hr : CallsNothing r) (h : ep.setCtx k none r = .ok ep') :
    AddsNoise k ep ep' ∧ ep'.nextId = ep.nextId := by
  unfold Ep.setCtx at h
  split at h
  · rw [hr.1] at h; cases h; exact ⟨.one (e := .setCtx k none) rfl ⟨rfl, rfl⟩, rfl⟩
  · cases h; exact ⟨.refl, rfl⟩

theorem dispatch_noise {ep ep' : Ep} {k r} (hr : CallsNothing r) (h : ep.dispatch k none r = .ok ep') :
    AddsNoise k ep ep' ∧ ep'.nextId = ep.nextId := by
  unfold Ep.dispatch at h
  rw [hr.2.2] at h; cases h; exact ⟨.one (e := .dispatch k none) rfl ⟨rfl, rfl⟩, rfl⟩

theorem releaseUses_noise {k} : ∀ (us : List (Nat × Nat)) {ep ep' : Ep}, ep.releaseUses us = .ok ep' →
    AddsNoise k ep ep' ∧ ep'.nextId = ep.nextId
  | [], ep, ep', h => by cases h; exact ⟨.refl, rfl⟩
  | u :: us, ep, ep', h => by
    unfold Ep.releaseUses at h
    split at h
    · cases h
    · have := releaseUses_noise (k := k) us h
      exact this

/-- A message is received that answers no pending request, and the application does nothing. -/
theorem handleRx_noise {ep ep' : Ep} (h : Reached ep) {m r} (hr : CallsNothing r) (hx : ep.handleRx m r = .ok ep')
    (hm : m.isResponse = true → ∀ e ∈ ep.reqs, m.h.seq ≠ e.m.h.seq) :
    AddsNoise ep.nextId ep ep' ∧ ep.nextId < ep'.nextId ∧ ∃ l n, ep' = { ep with log := l, nextId := n } := by
  have hst : ∃ l n, ep' = { ep with log := l, nextId := n } := by
    obtain ⟨l, n, he⟩ := handleRx_idle h hr hx
    have : afterMessage ep m = ep := by
      unfold afterMessage
      split
      · rename_i h1
        have : ep.reqs.find? (fun e => e.m.h.seq == m.h.seq) = none := by
          refine List.find?_eq_none.2 fun e he => ?_
          have := hm h1 e he
          simpa using fun h => this h.symm
        rw [this]
      · rfl
    rw [this] at he
    exact ⟨l, n, he⟩
  suffices hs : AddsNoise ep.nextId ep ep' ∧ ep.nextId < ep'.nextId from ⟨hs.1, hs.2, hst⟩
  unfold Ep.handleRx at hx
  obtain ⟨ep1, h1, hx1⟩ := Res.bind_eq_ok hx
  obtain ⟨ep2, h2, hx2⟩ := Res.bind_eq_ok hx1
  clear hx hx1
  obtain ⟨e2, n2⟩ := releaseUses_noise (k := ep.nextId) _ hx2
  have e0 : AddsNoise ep.nextId ep ({ ep with nextId := ep.nextId + 1 }.note (.received ep.nextId m)) := .one rfl rfl
  have hb : AddsNoise ep.nextId ({ ep with nextId := ep.nextId + 1 }.note (.received ep.nextId m)) ep1 ∧ ep.nextId < ep1.nextId ∧
      ep1.reqs = ep.reqs := by
    unfold Ep.heartbeatReply at h1
    split at h1
    · obtain ⟨⟨ep3, m3, rc⟩, h3, h1⟩ := Res.bind_eq_ok h1
      cases h1
      obtain ⟨a1, a2⟩ := sendMsg_noise (.inl rfl) h3
      refine ⟨a1, ?_, ?_⟩
      · rw [a2]; show ep.nextId < ep.nextId + 1 + 1; omega
      · rcases sendMsg_ok h3 with ⟨o, _, _, _, h⟩ | ⟨l, e, enc, hl, _, h⟩
        · cases h; rfl
        · cases h; rfl
    · cases h1; exact ⟨.refl, Nat.lt_succ_self _, rfl⟩
  obtain ⟨b1, b2, b3⟩ := hb
  have hc : AddsNoise ep.nextId ep1 ep2 ∧ ep2.nextId = ep1.nextId := by
    unfold Ep.handleMsg at h2
    split at h2
    · rename_i prev hf
      cases hres : m.isResponse with
      | true =>
        rw [hres] at hf
        simp only [if_true] at hf
        obtain ⟨g1, g3⟩ := queueFind_some hf
        rw [b3] at g1
        exact absurd g3.symm (hm hres prev g1)
      | false =>
        rw [hres] at h2
        simp only [Bool.false_eq_true, if_false] at h2
        unfold Ep.handleDuplicate at h2
        obtain ⟨ep3, h3, h2⟩ := Res.bind_eq_ok h2
        obtain ⟨ep4, h4, h3⟩ := Res.bind_eq_ok h3
        cases h3
        obtain ⟨c1, c2⟩ := setCtx_noise hr h4
        split at h2
        · cases h2
        · obtain ⟨⟨ep5, m5, rc⟩, h5, h2⟩ := Res.bind_eq_ok h2
          cases h2
          obtain ⟨d1, d2⟩ := sendMsg_noise (.inr rfl) h5
          exact ⟨AddsNoise.trans (b := ep4) c1 d1, d2.trans c2⟩
    · obtain ⟨ep3, h3, h2⟩ := Res.bind_eq_ok h2
      obtain ⟨c1, c2⟩ := setCtx_noise hr h3
      obtain ⟨d1, d2⟩ := dispatch_noise hr h2
      exact ⟨c1.trans d1, d2.trans c2⟩
  exact ⟨((e0.trans b1).trans hc.1).trans e2, by rw [n2, hc.2]; exact b2⟩

theorem handleAll_more {remote} : ∀ {msgs : List Rx} {rs : List React} {ep ep' : Ep}, Reached ep → ep.handleAll remote msgs rs = .ok ep' →
    ∃ l, ep'.log = l ++ ep.log
  | [], _, ep, ep', _, h => by cases h; exact ⟨[], rfl⟩
  | ⟨_, none⟩ :: l, rs, ep, ep', h0, h => handleAll_more (msgs := l) h0 h
  | ⟨d, some ies⟩ :: l, rs, ep, ep', h0, h => by
    obtain ⟨ep1, h1, h⟩ := Res.bind_eq_ok h
    obtain ⟨la, ha, -⟩ := h0.rxNew h1
    obtain ⟨lb, hb⟩ := handleAll_more (h0.rx _ _ h1) h
    exact ⟨lb ++ la, by rw [hb, ha, List.append_assoc]⟩

theorem handleAll_noise {remote} : ∀ {msgs : List Rx} {rs : List React} {ep ep' : Ep}, Reached ep → (∀ r ∈ rs, CallsNothing r) →
    ep.handleAll remote msgs rs = .ok ep' →
    (∀ l, ep'.log = l ++ ep.log → ∀ k m, Event.received k m ∈ l → m.isResponse = true → ∀ e ∈ ep.reqs, m.h.seq ≠ e.m.h.seq) →
    ∃ l n, ep' = { ep with log := l ++ ep.log, nextId := n } ∧ ep.nextId ≤ n ∧ ∀ e ∈ l, ∃ k, ep.nextId ≤ k ∧ k < n ∧ OfNoise k e
  | [], _, ep, ep', _, _, h, _ => by
    cases h
    exact ⟨[], ep.nextId, rfl, Nat.le_refl _, fun _ h => by cases h⟩
  | ⟨_, none⟩ :: l, rs, ep, ep', h0, hr, h, hm => handleAll_noise (msgs := l) h0 hr h hm
  | ⟨d, some ies⟩ :: l, rs, ep, ep', h0, hr, h, hm => by
    obtain ⟨ep1, h1, h⟩ := Res.bind_eq_ok h
    have hhead : CallsNothing (rs.headD {}) := by
      cases rs with
      | nil => exact ⟨rfl, rfl, rfl⟩
      | cons r rs => exact hr r (.head _)
    have hall := fun r hr' => hr r (List.mem_of_mem_tail hr')
    obtain ⟨la, ha, hin, -⟩ := h0.rxNew h1
    obtain ⟨lb, hb⟩ := handleAll_more (h0.rx _ _ h1) h
    obtain ⟨⟨l1, e1, g1⟩, hlt, l', n', hst⟩ := handleRx_noise h0 hhead h1 fun hres =>
      hm (lb ++ la) (by rw [hb, ha, List.append_assoc]) _ _ (List.mem_append_right _ hin) hres
    have hreqs : ep1.reqs = ep.reqs := by rw [hst]
    obtain ⟨l2, n2, e2, hle, g2⟩ := handleAll_noise (h0.rx _ _ h1) hall h fun l hl k m hk => by
      rw [hreqs]
      exact hm (l ++ la) (by rw [hl, ha, List.append_assoc]) k m (List.mem_append_left _ hk)
    refine ⟨l2 ++ l1, n2, ?_, Nat.le_trans (Nat.le_of_lt hlt) hle, fun e he => ?_⟩
    · rw [e2, List.append_assoc, ← e1, hst]
    · rcases List.mem_append.1 he with he | he
      · obtain ⟨k, k1, k2, k3⟩ := g2 e he
        exact ⟨k, Nat.le_trans (Nat.le_of_lt hlt) k1, k2, k3⟩
      · exact ⟨ep.nextId, Nat.le_refl _, Nat.lt_of_lt_of_le hlt hle, g1 e he⟩

theorem rxDatagram_noise {ep ep' : Ep} (h : Reached ep) {remote d rs} (hr : ep.rxDatagram remote d rs = .ok ep') (hn : Noise ep rs ep') :
    ∃ l n, ep' = { ep with log := l ++ ep.log, nextId := n } ∧ ep.nextId ≤ n ∧ ∀ e ∈ l, ∃ k, ep.nextId ≤ k ∧ k < n ∧ OfNoise k e := by
  unfold Ep.rxDatagram at hr
  dsimp only at hr
  split at hr
  · cases hr
    exact ⟨[], ep.nextId, rfl, Nat.le_refl _, fun _ h => by cases h⟩
  split at hr
  · cases hr
  obtain ⟨msgs, -, hr⟩ := Res.bind_eq_ok hr
  exact handleAll_noise h hn.1 hr hn.2

/-! ### The two histories -/

theorem act_op {a : Act} {ep ep' : Ep} (h : a.step ep = .ok ep') : ep' = ep ∨ ∃ op : Op, op.step ep = .ok ep' := by
  cases a with
  | app a => exact .inr ⟨.app a, h⟩
  | rx remote d rs => exact .inr ⟨.rx remote d rs, h⟩
  | advance ms => exact .inr ⟨.advance ms, h⟩
  | reqTimer i io cb =>
    unfold Act.step at h
    dsimp only at h
    split at h
    · exact .inr ⟨_, h⟩
    · cases h; exact .inl rfl
  | respTimer i =>
    unfold Act.step at h
    dsimp only at h
    split at h
    · exact .inr ⟨_, h⟩
    · cases h; exact .inl rfl
  | peerTimer fi io => exact .inr ⟨.peerTimer fi io, h⟩

theorem reached_act {a : Act} {ep ep' : Ep} (h0 : Reached ep) (h : a.step ep = .ok ep') : Reached ep' := by
  rcases act_op h with rfl | ⟨op, h⟩
  · exact h0
  · exact .op op h0 h

/-- The state without noise, and that with noise. -/
structure Pair (f : Nat → Nat) (d : Nat) (a b : Ep) : Prop where
  inj : ∀ i j, f i = f j → i = j
  shift : ∀ i, a.nextId ≤ i → f i = i + d
  lt : ∀ i, i < a.nextId → f i < a.nextId + d
  eq : b = { a with reqs := a.reqs.map (renEntry f), resps := a.resps.map (renEntry f), busy := a.busy.map f, nextId := a.nextId + d, log := b.log }
  reqs : ∀ e ∈ a.reqs, e.id < a.nextId
  resps : ∀ e ∈ a.resps, e.id < a.nextId

theorem renWhy_id (w : Why) : renWhy (fun i => i) w = w := by cases w <;> rfl

theorem renEvent_id (e : Event) : renEvent (fun i => i) e = e := by
  cases e <;> simp [renEvent, renWhy_id]

theorem renEntry_id (e : QEntry) : renEntry (fun i => i) e = e := rfl

theorem Pair.step {f d} {a b b' : Ep} (h : Pair f d a b) {x : Act} (hx : x.step b = .ok b') :
    ∃ a' l, x.step a = .ok a' ∧ Pair f d a' b' ∧ a'.log = l ++ a.log ∧ b'.log = l.map (renEvent f) ++ b.log ∧ (∀ e ∈ l, Below a'.nextId e) ∧
      a.nextId ≤ a'.nextId := by
  let R : Ren := ⟨f, d, a.nextId, b.log, h.inj, h.shift⟩
  let I : Ren := ⟨fun i => i, 0, a.nextId, a.log, fun _ _ h => h, fun _ _ => rfl⟩
  have hlow : Low { a with log := [] } := ⟨h.reqs, h.resps, fun _ h => by cases h⟩
  have s1 : Sim R a.nextId { a with log := [] } b := ⟨h.eq, Nat.le_refl _, Nat.le_refl _, hlow⟩
  have s2 : Sim I a.nextId { a with log := [] } a := by
    refine ⟨?_, Nat.le_refl _, Nat.le_refl _, hlow⟩
    show a = { a with reqs := a.reqs.map fun e => e, resps := a.resps.map fun e => e, busy := a.busy.map fun i => i, nextId := a.nextId + 0, log := [] ++ a.log }
    simp only [List.map_id', Nat.add_zero, List.nil_append]
  obtain ⟨c', hc, t1⟩ := (act_ren s1 x).ok hx
  have h2 := act_ren s2 x
  rw [hc] at h2
  cases ha : x.step a with
  | ok a' =>
    rw [ha] at h2
    have t2 : Sim I a.nextId c' a' := h2
    have e2 : a' = { c' with log := c'.log ++ a.log } := by
      rw [t2.eq]
      show ({ c' with reqs := c'.reqs.map fun e => e, resps := c'.resps.map fun e => e, busy := c'.busy.map fun i => i, nextId := c'.nextId + 0
                      log := c'.log.map (renEvent fun i => i) ++ a.log } : Ep) = _
      rw [List.map_congr_left (fun e _ => renEvent_id e)]
      simp only [List.map_id', Nat.add_zero]
    refine ⟨a', c'.log, rfl, ⟨h.inj, fun i hi => ?_, fun i hi => ?_, ?_, ?_, ?_⟩, ?_, ?_, ?_, ?_⟩
    · rw [e2] at hi
      exact h.shift i (Nat.le_trans t1.n hi)
    · rw [e2] at hi ⊢
      have hn := t1.n
      dsimp only at hi ⊢
      by_cases hlt : i < a.nextId
      · exact Nat.lt_of_lt_of_le (h.lt i hlt) (Nat.add_le_add_right hn _)
      · rw [h.shift i (Nat.le_of_not_lt hlt)]; omega
    · rw [t1.eq, e2]; rfl
    · rw [e2]; exact t1.low.reqs
    · rw [e2]; exact t1.low.resps
    · rw [e2]
    · rw [t1.eq]; rfl
    · rw [e2]; exact t1.low.log
    · rw [e2]; exact t1.n
  | _ => rw [ha] at h2; exact h2.elim

theorem renWhy_congr {f g : Nat → Nat} {k} (h : ∀ i, i < k → f i = g i) {w} (hw : whyBelow k w) : renWhy f w = renWhy g w := by
  cases w with
  | heartbeatReply i => exact congrArg _ (h i hw)
  | cachedReply i => exact congrArg _ (h i hw)
  | _ => rfl

theorem renEvent_congr {f g : Nat → Nat} {k} (h : ∀ i, i < k → f i = g i) {e} (he : Below k e) : renEvent f e = renEvent g e := by
  have ho : ∀ o : Option Nat, (∀ i, o = some i → i < k) → o.map f = o.map g := by
    rintro (_ | i) hi
    · rfl
    · simp [h i (hi i rfl)]
  cases e <;> simp only [Below] at he <;> simp only [renEvent]
  case send => rw [h _ he.2, renWhy_congr h he.1]
  case respCb => rw [h _ he.1, ho _ he.2]
  case setCtx => rw [h _ he.1, ho _ he.2]
  case dispatch => rw [h _ he.1, ho _ he.2]
  all_goals rw [h _ he]

theorem inserted_same {f} {l l' : List Event} (h : Inserted f l l') : ∀ x : List Event, Inserted f (x ++ l) (x.map (renEvent f) ++ l')
  | [] => h
  | _ :: x => .same (inserted_same h x)

theorem inserted_append {f} {l1 l1' l2 l2' : List Event} (h2 : Inserted f l2 l2') (h1 : Inserted f l1 l1') : Inserted f (l2 ++ l1) (l2' ++ l1') := by
  induction h2 with
  | nil => exact h1
  | same _ ih => exact .same ih
  | noise hk hf _ ih => exact .noise hk hf ih

theorem inserted_noise {f} : ∀ {l : List Event}, (∀ e ∈ l, ∃ k, OfNoise k e ∧ ∀ i, f i ≠ k) → Inserted f [] l
  | [], _ => .nil
  | e :: l, h => by
    obtain ⟨k, h1, h2⟩ := h e (.head _)
    exact .noise h1 h2 (inserted_noise fun x hx => h x (.tail _ hx))

theorem Pair.noiseAt {f dd} {a b b1 : Ep} (h : Pair f dd a b) (hr : Reached b) {l n} (e1 : b1 = { b with log := l ++ b.log, nextId := n })
    (e2 : b.nextId ≤ n) : Pair (fun i => if i < a.nextId then f i else i + (n - a.nextId)) (n - a.nextId) a b1 := by
  have hb : b.nextId = a.nextId + dd := by rw [h.eq]
  have hlog1 : b1.log = l ++ b.log := by rw [e1]
  refine ⟨fun i j hij => ?_, fun i hi => ?_, fun i hi => ?_, ?_, h.reqs, h.resps⟩
  · by_cases hi : i < a.nextId <;> by_cases hj : j < a.nextId
    · rw [if_pos hi, if_pos hj] at hij; exact h.inj _ _ hij
    · rw [if_pos hi, if_neg hj] at hij
      have := h.lt i hi
      omega
    · rw [if_neg hi, if_pos hj] at hij
      have := h.lt j hj
      omega
    · rw [if_neg hi, if_neg hj] at hij; omega
  · exact if_neg (by omega)
  · rw [if_pos hi]
    have := h.lt i hi
    omega
  · have m1 : a.reqs.map (renEntry fun i => if i < a.nextId then f i else i + (n - a.nextId)) = a.reqs.map (renEntry f) :=
      List.map_congr_left fun e he => by unfold renEntry; dsimp only; rw [if_pos (h.reqs e he)]
    have m2 : a.resps.map (renEntry fun i => if i < a.nextId then f i else i + (n - a.nextId)) = a.resps.map (renEntry f) :=
      List.map_congr_left fun e he => by unfold renEntry; dsimp only; rw [if_pos (h.resps e he)]
    have m3 : a.busy = [] := by
      have := hr.busy
      rw [h.eq] at this
      exact List.map_eq_nil_iff.1 this
    rw [m1, m2, hlog1, e1]
    have hh := h.eq
    have : a.nextId + (n - a.nextId) = n := by omega
    rw [this]
    rw [hh]
    rw [m3]
    rfl

theorem Pair.noise {f d} {a b b1 : Ep} (h : Pair f d a b) (hr : Reached b) {remote dg rs} (hx : b.rxDatagram remote dg rs = .ok b1)
    (hn : Noise b rs b1) : ∃ f' d', Pair f' d' a b1 := by
  obtain ⟨l, n, e1, e2, -⟩ := rxDatagram_noise hr hx hn
  exact ⟨_, _, h.noiseAt hr e1 e2⟩

theorem withNoise_sim {b b' : Ep} {quiet noisy} (hw : WithNoise b quiet noisy b') : ∀ {f d} {a : Ep}, Pair f d a b → Reached b →
    ∃ q f' d' lq ln, runActs quiet a = .ok q ∧ Pair f' d' q b' ∧ q.log = lq ++ a.log ∧ b'.log = ln ++ b.log ∧ Inserted f' lq ln ∧
      (∀ i, i < a.nextId → f' i = f i) ∧ (∀ i, a.nextId ≤ i → b.nextId ≤ f' i) := by
  induction hw with
  | @done b =>
    intro f d a h _
    refine ⟨a, f, d, [], [], rfl, h, rfl, rfl, .nil, fun _ _ => rfl, fun i hi => ?_⟩
    rw [h.shift i hi, h.eq]
    exact Nat.add_le_add_right hi _
  | @act b b1 b' x quiet noisy hx _ ih =>
    intro f d a h hr
    obtain ⟨a1, l, e1, h1, e2, e3, e4, e5⟩ := h.step hx
    obtain ⟨q, f', d', lq, ln, g1, g2, g3, g4, g5, g6, g7⟩ := ih h1 (reached_act hr hx)
    have hn : b.nextId = a.nextId + d := by rw [h.eq]
    have hn1 : b1.nextId = a1.nextId + d := by rw [h1.eq]
    refine ⟨q, f', d', lq ++ l, ln ++ l.map (renEvent f), ?_, g2, by rw [g3, e2, List.append_assoc], by rw [g4, e3, List.append_assoc],
      inserted_append g5 ?_, fun i hi => g6 i (Nat.lt_of_lt_of_le hi e5), fun i hi => ?_⟩
    · show (x.step a).bind _ = _
      rw [e1]; exact g1
    · have := inserted_same (.nil : Inserted f' [] []) l
      rw [List.append_nil, List.append_nil] at this
      rw [show l.map (renEvent f) = l.map (renEvent f') from
        List.map_congr_left fun e he => renEvent_congr (fun i hi => (g6 i hi).symm) (e4 e he)]
      exact this
    · by_cases hlt : i < a1.nextId
      · rw [g6 i hlt, h.shift i hi, hn]; omega
      · have := g7 i (Nat.le_of_not_lt hlt)
        omega
  | @noise b b1 b' remote d rs quiet noisy hx hn _ ih =>
    intro f dd a h hr
    obtain ⟨l, n, e1, e2, e3⟩ := rxDatagram_noise hr hx hn
    have hb : b.nextId = a.nextId + dd := by rw [h.eq]
    have hn1 : b1.nextId = n := by rw [e1]
    have hlog1 : b1.log = l ++ b.log := by rw [e1]
    have h1 := h.noiseAt hr e1 e2
    have hr1 : Reached b1 := .op (.rx remote d rs) hr hx
    obtain ⟨q, f', d', lq, ln, g1, g2, g3, g4, g5, g6, g7⟩ := ih h1 hr1
    refine ⟨q, f', d', lq, ln ++ l, g1, g2, g3, by rw [g4, hlog1, List.append_assoc], ?_, fun i hi => ?_, fun i hi => ?_⟩
    · have := inserted_append g5 (inserted_noise (f := f') (l := l) fun e he => ?_)
      · rwa [List.append_nil] at this
      · obtain ⟨k, k1, k2, k3⟩ := e3 e he
        refine ⟨k, k3, fun i hk => ?_⟩
        by_cases hi : i < a.nextId
        · have := g6 i hi
          rw [if_pos hi] at this
          have := h.lt i hi
          omega
        · have := g7 i (Nat.le_of_not_lt hi)
          omega
    · have := g6 i hi
      rwa [if_pos hi] at this
    · have := g7 i hi
      omega

theorem Pair.start {ep : Ep} (h : Reached ep) : Pair (fun i => i) 0 ep ep := by
  have hi : Inv (ep, {}) := h.inv
  have low : ∀ {q : List QEntry}, (∀ i, ep.nextId ≤ i → look q i = none) → ∀ e ∈ q, e.id < ep.nextId := by
    intro q hq e he
    refine Nat.lt_of_not_le fun hle => ?_
    have := List.find?_eq_none.1 (hq _ hle) e he
    simp at this
  refine ⟨fun _ _ h => h, fun _ _ => rfl, fun _ h => h, ?_, low fun i hi' => (hi.fresh hi').2.1, low fun i hi' => (hi.fresh hi').2.2.1⟩
  show ep = { ep with reqs := ep.reqs.map fun e => e, resps := ep.resps.map fun e => e, busy := ep.busy.map fun i => i, nextId := ep.nextId + 0, log := ep.log }
  simp only [List.map_id', Nat.add_zero]

/-- C121: noise changes nothing.  A history with additional datagrams - any octets, from anywhere, at any time - that the application does nothing about and that answer no
pending request: without them, the endpoint would do just the same: it sends the same octets to the same addresses at the same times, calls the same callbacks with the same
messages, in the same order, and ends up in the same state.  What is additional in the log is that those messages are received, told to the callbacks, and answered if
they are heartbeats or repeated requests. -/
theorem C121_noise {ep n : Ep} (h : Reached ep) {quiet noisy} (hn : WithNoise ep quiet noisy n) :
    ∃ q f lq ln, runActs quiet ep = .ok q ∧ q.log = lq ++ ep.log ∧ n.log = ln ++ ep.log ∧ Inserted f lq ln ∧ SameState f q n ∧
      (∀ i j, f i = f j → i = j) ∧ ∀ i, i < ep.nextId → f i = i := by
  obtain ⟨q, f, d, lq, ln, g1, g2, g3, g4, g5, g6, g7⟩ := withNoise_sim hn (Pair.start h) h
  refine ⟨q, f, lq, ln, g1, g3, g4, g5, ?_, g2.inj, g6⟩
  unfold SameState
  have e := g2.eq
  have hnx : n.nextId = q.nextId + d := by rw [e]
  rw [hnx]
  exact e

theorem inserted_views {f} {l l' : List Event} (h : Inserted f l l') : ownSends l' = ownSends l ∧ peerEvents l' = peerEvents l ∧
    allRespCbs l' = (allRespCbs l).map fun x => (f x.1, x.2.1.map f, x.2.2) := by
  induction h with
  | nil => exact ⟨rfl, rfl, rfl⟩
  | @same e l l' _ ih =>
    obtain ⟨h1, h2, h3⟩ := ih
    unfold ownSends peerEvents allRespCbs at *
    cases e with
    | send why id r o ok t => cases why <;> simp [renEvent, renWhy, h1, h2, h3]
    | _ => simp [renEvent, h1, h2, h3]
  | @noise k e l l' hk _ _ ih =>
    obtain ⟨h1, h2, h3⟩ := ih
    unfold ownSends peerEvents allRespCbs at *
    cases e with
    | send why id r o ok t => cases why <;> first | exact (show False from hk).elim | simp [h1, h2, h3]
    | _ => first | exact (show False from hk).elim | simp [h1, h2, h3]

/-- C121: in particular, what the endpoint sends of its own accord - new messages and retransmissions -, the state changes of CP peers, and the calls of resp_cb() are the
same, at the same times, in the same order. -/
theorem C121_effects {ep n : Ep} (h : Reached ep) {quiet noisy} (hn : WithNoise ep quiet noisy n) :
    ∃ q lq ln, runActs quiet ep = .ok q ∧ q.log = lq ++ ep.log ∧ n.log = ln ++ ep.log ∧ ownSends ln = ownSends lq ∧ peerEvents ln = peerEvents lq ∧
      ((allRespCbs ln).map fun x => (x.2.1.isSome, x.2.2)) = ((allRespCbs lq).map fun x => (x.2.1.isSome, x.2.2)) := by
  obtain ⟨q, f, lq, ln, h1, h2, h3, h4, -⟩ := C121_noise h hn
  obtain ⟨g1, g2, g3⟩ := inserted_views h4
  refine ⟨q, lq, ln, h1, h2, h3, g1, g2, ?_⟩
  rw [g3, List.map_map]
  congr 1
  funext x
  simp

/-! ### Example -/

/-- Whether this is noise. -/
def noiseB (ep : Ep) (rs : List React) (ep' : Ep) : Bool :=
  rs.isEmpty && (ep'.log.take (ep'.log.length - ep.log.length)).all fun e => match e with
    | .received _ m => !m.isResponse || ep.reqs.all fun e => decide (m.h.seq ≠ e.m.h.seq)
    | _ => true

theorem noiseB_ok {ep ep' : Ep} {rs} (h : noiseB ep rs ep' = true) : Noise ep rs ep' := by
  unfold noiseB at h
  rw [Bool.and_eq_true, List.isEmpty_iff] at h
  obtain ⟨hrs, h⟩ := h
  refine ⟨fun _ h => (by rw [hrs] at h; cases h), fun l hl k m hm hr e he => ?_⟩
  have hlen : ep'.log.length - ep.log.length = l.length := by rw [hl, List.length_append]; omega
  rw [hlen, hl, List.take_left] at h
  have := List.all_eq_true.1 h _ hm
  dsimp only at this
  rw [hr] at this
  simp only [Bool.not_true, Bool.false_or, List.all_eq_true, decide_eq_true_eq] at this
  exact this e he

/-- Run a history in which some datagrams (`true`) are supposed to be noise. -/
def noiseRun : List (Bool × Act) → Ep → Option Ep
  | [], ep => some ep
  | (false, a) :: l, ep => match a.step ep with
    | .ok ep1 => noiseRun l ep1
    | _ => none
  | (true, .rx remote d rs) :: l, ep => match ep.rxDatagram remote d rs with
    | .ok ep1 => if noiseB ep rs ep1 then noiseRun l ep1 else none
    | _ => none
  | (true, _) :: _, _ => none

theorem noiseRun_ok : ∀ {l : List (Bool × Act)} {ep n : Ep}, noiseRun l ep = some n →
    WithNoise ep ((l.filter fun x => !x.1).map (·.2)) (l.map (·.2)) n
  | [], ep, n, h => by cases h; exact .done
  | (false, a) :: l, ep, n, h => by
    unfold noiseRun at h
    split at h
    · rename_i ep1 h1
      exact .act h1 (noiseRun_ok h)
    · cases h
  | (true, .rx remote d rs) :: l, ep, n, h => by
    unfold noiseRun at h
    split at h
    · rename_i ep1 h1
      split at h
      · rename_i hb
        exact .noise h1 (noiseB_ok hb) (noiseRun_ok h)
      · cases h
    · cases h
  | (true, .app _) :: _, _, _, h => by cases h
  | (true, .advance _) :: _, _, _, h => by cases h
  | (true, .reqTimer ..) :: _, _, _, h => by cases h
  | (true, .respTimer _) :: _, _, _, h => by cases h
  | (true, .peerTimer ..) :: _, _, _, h => by cases h

/-- A request is sent, retransmitted and answered, and another one sent; in between, Heartbeat Requests are received (and answered), an unsolicited response, and octets that
are no message. -/
def exNoise : List (Bool × Act) :=
  [(false, .app (.bind true .done)), (true, .rx exUpf exOctets []), (false, .app (.tx exReq true .done .done)),
   (true, .rx exUpf [32, 55, 0, 9, 0, 0, 3, 0, 0, 19, 0, 1, 1] []), (false, .advance 100), (false, .reqTimer 0 true .done), (true, .rx exRemote [1, 2, 3] []),
   (true, .rx exRemote exOctets []), (false, .rx exRemote exRespOctets []), (false, .app (.tx exReq true .done .done))]

/-- The numbers of the messages that are sent, how often the endpoint sends something of its own accord, resp_cb() is called, and messages are received. -/
structure NoiseObs where
  numbers : List Nat
  sends : Nat
  calls : Nat
  received : Nat
  deriving DecidableEq

def noiseObs (ep : Ep) : NoiseObs :=
  ⟨ep.reqs.map (·.id), (ownSends ep.log).length, (allRespCbs ep.log).length, (receivedMsgs ep.log).length⟩

-- The hypotheses of C121 are met.  Messages have other numbers, but what is sent is the same.
example : ∃ n, WithNoise exEp ((exNoise.filter fun x => !x.1).map (·.2)) (exNoise.map (·.2)) n := by
  have : (noiseRun exNoise exEp).isSome = true := by decide +kernel
  obtain ⟨n, hn⟩ := Option.isSome_iff_exists.1 this
  exact ⟨n, noiseRun_ok hn⟩

example : ((noiseRun exNoise exEp).map noiseObs = some ⟨[7], 3, 1, 4⟩) ∧
    (noiseRun (exNoise.filter fun x => !x.1) exEp).map noiseObs = some ⟨[2], 3, 1, 1⟩ := by decide +kernel

end Verif.Props
