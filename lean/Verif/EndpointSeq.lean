/-
Sequence numbers of pending requests.
-/
import Verif.EndpointRx
import Verif.PropsMsg2

namespace Verif
open Props

/-- The length of the cycle of sequence numbers. -/
abbrev seqPeriod : Nat := 2 ^ 24 - 1

/-- `s` was the sequence number number `d`, if the counter was last set the `c`-th time. -/
def Drawn (ep : Ep) (s d c : Nat) : Prop :=
  d ≤ ep.draws ∧ c ≤ ep.resets ∧
    (c = ep.resets → 1 ≤ s ∧ s < 2 ^ 24 ∧ ep.seq.toNat = (s - 1 + (ep.draws - d)) % seqPeriod + 1)

theorem nextSeqNr_in_cycle (u : UInt32) (h1 : 1 ≤ u.toNat) (h2 : u.toNat < 2 ^ 24) :
    (nextSeqNr u).toNat = (u.toNat - 1 + 1) % seqPeriod + 1 := by
  have := nextSeqNr_iter u h1 h2 1
  simpa [iter] using this

theorem Drawn.draw {ep ep' : Ep} {s d c} (h : Drawn ep s d c) (hd : ep'.draws = ep.draws + 1) (hr : ep'.resets = ep.resets)
    (hs : ep'.seq = nextSeqNr ep.seq) : Drawn ep' s d c := by
  obtain ⟨h1, h2, h3⟩ := h
  refine ⟨by omega, by omega, fun hc => ?_⟩
  obtain ⟨a1, a2, a3⟩ := h3 (by omega)
  refine ⟨a1, a2, ?_⟩
  have hlt : (s - 1 + (ep.draws - d)) % seqPeriod < seqPeriod := Nat.mod_lt _ (by decide)
  simp only [seqPeriod] at hlt a3 ⊢
  rw [hs, nextSeqNr_in_cycle _ (by omega) (by omega), a3, hd]
  simp only [seqPeriod]
  omega

theorem Drawn.new (ep ep' : Ep) (_hd : ep'.draws = ep.draws + 1) (hs : ep'.seq = nextSeqNr ep.seq) :
    Drawn ep' (nextSeqNr ep.seq).toNat ep'.draws ep'.resets := by
  have := C30_in_range ep.seq
  refine ⟨Nat.le_refl _, Nat.le_refl _, fun _ => ⟨this.1, this.2, ?_⟩⟩
  rw [hs]
  simp only [seqPeriod]
  omega

theorem Drawn.same {ep ep' : Ep} {s d c} (h : Drawn ep s d c) (h1 : ep'.draws = ep.draws) (h2 : ep'.resets = ep.resets)
    (h3 : ep'.seq = ep.seq) : Drawn ep' s d c := by
  unfold Drawn at *
  rw [h1, h2, h3]; exact h

theorem Drawn.reset {ep ep' : Ep} {s d c} (h : Drawn ep s d c) (h1 : ep'.draws = ep.draws) (h2 : ep'.resets = ep.resets + 1) :
    Drawn ep' s d c := by
  obtain ⟨a, b, _⟩ := h
  exact ⟨by omega, by omega, fun hc => by omega⟩

/-- Different draws give different numbers. -/
theorem Drawn.ne {ep : Ep} {s s' d d' c} (h : Drawn ep s d c) (h' : Drawn ep s' d' c) (hc : c = ep.resets)
    (hd : d ≠ d') (hw : ep.draws < d + seqPeriod) (hw' : ep.draws < d' + seqPeriod) : s ≠ s' := by
  obtain ⟨a1, _, a3⟩ := h
  obtain ⟨b1, _, b3⟩ := h'
  obtain ⟨x1, x2, x3⟩ := a3 hc
  obtain ⟨y1, y2, y3⟩ := b3 hc
  rintro rfl
  rw [x3] at y3
  simp only [seqPeriod] at *
  omega

/-- How a small step changes the counter. -/
inductive SeqStep (ep ep' : Ep) : Prop
  | same : ep'.draws = ep.draws → ep'.resets = ep.resets → ep'.seq = ep.seq → SeqStep ep ep'
  | draw : ep'.draws = ep.draws + 1 → ep'.resets = ep.resets → ep'.seq = nextSeqNr ep.seq → SeqStep ep ep'
  | reset : ep'.draws = ep.draws → ep'.resets = ep.resets + 1 → SeqStep ep ep'

theorem SeqStep.drawn {ep ep' : Ep} {s d c} (hs : SeqStep ep ep') (h : Drawn ep s d c) : Drawn ep' s d c := by
  cases hs with
  | same h1 h2 h3 => exact h.same h1 h2 h3
  | draw h1 h2 h3 => exact h.draw h1 h2 h3
  | reset h1 h2 => exact h.reset h1 h2

theorem begun_seqStep (ep : Ep) (m : PMsg) : SeqStep ep (ep.begun m) := by
  unfold Ep.begun
  split
  · exact .same rfl rfl rfl
  · exact .draw rfl rfl rfl

/-- Where the entries of the request queue come from, in a small step. -/
theorem Micro.requests {a b : Ep × Ph} (h : Micro a b) :
    SeqStep a.1 b.1 ∧ a.1.nextId ≤ b.1.nextId ∧
    ∀ e ∈ b.1.reqs, (∃ e0 ∈ a.1.reqs, e.id = e0.id ∧ e.draw = e0.draw ∧ e.epoch = e0.epoch ∧ e.m.h.seq = e0.m.h.seq) ∨
      (e.id = a.1.nextId ∧ a.1.nextId < b.1.nextId ∧ b.1.draws = a.1.draws + 1 ∧ b.1.seq = nextSeqNr a.1.seq ∧
        e.draw = b.1.draws ∧ e.epoch = b.1.resets ∧ e.m.h.seq = (nextSeqNr a.1.seq).toNat) := by
  have keep : ∀ {q : List QEntry} {P : QEntry → Prop}, ∀ e ∈ q, (∃ e0 ∈ q, e.id = e0.id ∧ e.draw = e0.draw ∧
      e.epoch = e0.epoch ∧ e.m.h.seq = e0.m.h.seq) ∨ P e := fun e he => .inl ⟨e, he, rfl, rfl, rfl, rfl⟩
  have set : ∀ {q : List QEntry} {P : QEntry → Prop} (x x0 : QEntry), x0 ∈ q → x.id = x0.id → x.draw = x0.draw →
      x.epoch = x0.epoch → x.m.h.seq = x0.m.h.seq → ∀ e ∈ setEntry q x, (∃ e0 ∈ q, e.id = e0.id ∧ e.draw = e0.draw ∧
      e.epoch = e0.epoch ∧ e.m.h.seq = e0.m.h.seq) ∨ P e := by
    intro q P x x0 hx h1 h2 h3 h4 e he
    simp only [setEntry, List.mem_map] at he
    obtain ⟨y, hy, rfl⟩ := he
    split
    · exact .inl ⟨x0, hx, h1, h2, h3, h4⟩
    · exact .inl ⟨y, hy, rfl, rfl, rfl, rfl⟩
  cases h
  case txQueued ep ph m o hs hn ho =>
    have hstep := begun_seqStep ep m
    by_cases hr : m.isResponse = true
    · have hq : ((ep.begun m).entry ep.nextId { ep.outgoing m with encoded := some o }).m.isResponse = true := by
        simpa [Ep.entry] using hr
      simp only [Ep.enqueue, if_pos hq, Ep.logs]
      refine ⟨by cases hstep <;> first | exact .same ‹_› ‹_› ‹_› | exact .draw ‹_› ‹_› ‹_› | exact .reset ‹_› ‹_›,
        by simp, ?_⟩
      simp only [begun_reqs]
      exact keep
    · have hq : ¬ ((ep.begun m).entry ep.nextId { ep.outgoing m with encoded := some o }).m.isResponse = true := by
        simpa [Ep.entry] using hr
      simp only [Ep.enqueue, if_neg hq, Ep.logs]
      refine ⟨by cases hstep <;> first | exact .same ‹_› ‹_› ‹_› | exact .draw ‹_› ‹_› ‹_› | exact .reset ‹_› ‹_›,
        by simp, ?_⟩
      intro e he
      simp only [begun_reqs, List.mem_cons] at he
      rcases he with rfl | he
      · right
        simp only [begun_nextId, begun_resets, Ep.entry]
        refine ⟨trivial, Nat.lt_succ_self _, ?_, ?_, trivial, trivial, ?_⟩
        · simp [Ep.begun, hr]
        · simp [Ep.begun, hr]
        · simp only [Ep.outgoing, if_neg hr, PMsg.withNodeId]
          split <;> rfl
      · exact .inl ⟨e, he, rfl, rfl, rfl, rfl⟩
  case txLost ep ph m e l h1 h2 =>
    refine ⟨?_, by simp [Ep.logs], ?_⟩
    · cases begun_seqStep ep m <;> first | exact .same ‹_› ‹_› ‹_› | exact .draw ‹_› ‹_› ‹_› | exact .reset ‹_› ‹_›
    · simp only [Ep.logs, begun_reqs]; exact keep
  case txLostCb ep ph m l h1 h2 h3 =>
    refine ⟨?_, by simp [Ep.logs], ?_⟩
    · cases begun_seqStep ep m <;> first | exact .same ‹_› ‹_› ‹_› | exact .draw ‹_› ‹_› ‹_› | exact .reset ‹_› ‹_›
    · simp only [Ep.logs, begun_reqs]; exact keep
  case txUnq ep ph m o h1 h2 h3 h4 =>
    refine ⟨?_, by simp [Ep.logs], ?_⟩
    · cases begun_seqStep ep m <;> first | exact .same ‹_› ‹_› ‹_› | exact .draw ‹_› ‹_› ‹_› | exact .reset ‹_› ‹_›
    · simp only [Ep.logs, begun_reqs]; exact keep
  case txUnqCb ep ph m o h1 h2 h3 h4 h5 =>
    refine ⟨?_, by simp [Ep.logs], ?_⟩
    · cases begun_seqStep ep m <;> first | exact .same ‹_› ‹_› ‹_› | exact .draw ‹_› ‹_› ‹_› | exact .reset ‹_› ‹_›
    · simp only [Ep.logs, begun_reqs]; exact keep
  case txLostEnd => exact ⟨.same rfl rfl rfl, Nat.le_refl _, keep⟩
  case txUnqEnd => exact ⟨.same rfl rfl rfl, Nat.le_refl _, keep⟩
  case number => exact ⟨.same rfl rfl rfl, Nat.le_succ _, keep⟩
  case heartbeat => exact ⟨.draw rfl rfl rfl, Nat.le_succ _, keep⟩
  case replied => exact ⟨.same rfl rfl rfl, Nat.le_refl _, keep⟩
  case quiet => exact ⟨.same rfl rfl rfl, Nat.le_refl _, keep⟩
  case invalidate ep ph fi =>
    refine ⟨.same rfl rfl rfl, Nat.le_refl _, ?_⟩
    intro e he
    simp only [Ep.dropCtx, List.mem_map] at he
    obtain ⟨y, hy, rfl⟩ := he
    refine .inl ⟨y, hy, rfl, rfl, rfl, ?_⟩
    simp only [msgInvalidateCtx]
    split <;> split <;> rfl
  case setSeq => exact ⟨.reset rfl rfl, Nat.le_refl _, keep⟩
  case setTimers => exact ⟨.same rfl rfl rfl, Nat.le_refl _, keep⟩
  case close => exact ⟨.same rfl rfl rfl, Nat.le_refl _, fun e he => by cases he⟩
  case peers => exact ⟨.same rfl rfl rfl, Nat.le_refl _, keep⟩
  case bind => exact ⟨.same rfl rfl rfl, Nat.le_refl _, keep⟩
  case advance => exact ⟨.same rfl rfl rfl, Nat.le_refl _, keep⟩
  case retrans ep e o hb hf hx hr hn hs ho =>
    exact ⟨.same rfl rfl rfl, Nat.le_refl _, set _ e (find_id hf).1 rfl rfl rfl rfl⟩
  case timeout ep e l hb hf hx hr hc hl =>
    refine ⟨.same rfl rfl rfl, Nat.le_refl _, fun x hx => ?_⟩
    exact .inl ⟨x, (List.mem_filter.mp hx).1, rfl, rfl, rfl, rfl⟩
  case timeoutCb ep e e' l hb hf hx hr hc hl hid ht hm hd hep henc =>
    obtain ⟨enc, hm⟩ := hm
    exact ⟨.same rfl rfl rfl, Nat.le_refl _, set _ e (find_id hf).1 hid hd hep (by rw [hm])⟩
  case complete ep id p hb he hp =>
    refine ⟨.same rfl rfl rfl, Nat.le_refl _, fun x hx => ?_⟩
    exact .inl ⟨x, (List.mem_filter.mp hx).1, rfl, rfl, rfl, rfl⟩
  case expire ep e hb hf hx hr =>
    refine ⟨.same rfl rfl rfl, Nat.le_refl _, fun x hx => ?_⟩
    exact .inl ⟨x, (List.mem_filter.mp hx).1, rfl, rfl, rfl, rfl⟩
  case found => exact ⟨.same rfl rfl rfl, Nat.le_refl _, keep⟩
  case matched => exact ⟨.same rfl rfl rfl, Nat.le_refl _, keep⟩
  case called => exact ⟨.same rfl rfl rfl, Nat.le_refl _, keep⟩
  case dispatched => exact ⟨.same rfl rfl rfl, Nat.le_refl _, keep⟩
  case dup => exact ⟨.same rfl rfl rfl, Nat.le_refl _, keep⟩
  case resend => exact ⟨.same rfl rfl rfl, Nat.le_refl _, keep⟩

/-- Each pending request has a sequence number that was drawn for it. -/
structure SeqInv (x : Ep × Ph) : Prop where
  drawn : ∀ e ∈ x.1.reqs, Drawn x.1 e.m.h.seq e.draw e.epoch
  distinct : ∀ e ∈ x.1.reqs, ∀ e' ∈ x.1.reqs, e.draw = e'.draw → e.id = e'.id

theorem SeqStep.draws_le {ep ep' : Ep} (h : SeqStep ep ep') : ep.draws ≤ ep'.draws := by
  cases h <;> omega

theorem SeqInv.step {a b : Ep × Ph} (h : SeqInv a) (hs : Micro a b) : SeqInv b := by
  obtain ⟨h1, _, h2⟩ := hs.requests
  constructor
  · intro e he
    rcases h2 e he with ⟨e0, he0, _, hd, hep, hsq⟩ | ⟨_, _, hd, hsq', hdr, hep, hsq⟩
    · rw [hsq, hd, hep]
      exact h1.drawn (h.drawn e0 he0)
    · rw [hsq, hdr, hep]
      exact Drawn.new a.1 b.1 hd hsq'
  · intro e he e' he' hdd
    rcases h2 e he with ⟨e0, he0, i0, d0, _⟩ | ⟨i0, _, d0, _, d1, _⟩ <;>
      rcases h2 e' he' with ⟨e0', he0', i0', d0', _⟩ | ⟨i0', _, d0', _, d1', _⟩
    · rw [i0, i0']
      exact h.distinct e0 he0 e0' he0' (by rw [← d0, ← d0', hdd])
    · have := (h.drawn e0 he0).1
      omega
    · have := (h.drawn e0' he0').1
      omega
    · rw [i0, i0']

/-- What is remembered about a request that is no longer pending. -/
def Past (i s d c : Nat) (x : Ep × Ph) : Prop :=
  Drawn x.1 s d c ∧ i < x.1.nextId ∧ ∀ e ∈ x.1.reqs, e.id ≠ i → e.draw ≠ d

theorem Past.step {i s d c : Nat} {a b : Ep × Ph} (h : Past i s d c a) (hs : Micro a b) : Past i s d c b := by
  obtain ⟨p1, p2, p3⟩ := h
  obtain ⟨h1, hn, h2⟩ := hs.requests
  refine ⟨h1.drawn p1, by omega, fun e he hne => ?_⟩
  rcases h2 e he with ⟨e0, he0, i0, d0, _⟩ | ⟨i0, _, d0, _, d1, _⟩
  · rw [d0]; exact p3 e0 he0 (by rw [← i0]; exact hne)
  · have := p1.1; omega

end Verif
