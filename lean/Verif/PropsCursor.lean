/-
Property theorems C115: a loader, whatever it is asked in whatever order.
-/
import Verif.PropsFormat

namespace Verif.Spec
open Verif

/-- What one can call for a `struct osmo_gtlv_load`. -/
inductive Call where
  /-- osmo_gtlv_load_next() -/
  | next
  /-- osmo_gtlv_load_peek_tag() -/
  | peek
  /-- osmo_gtlv_load_next_by_tag_inst() -/
  | find (ti : TagInst)
  /-- osmo_gtlv_load_start() -/
  | start

/-- What is returned. -/
inductive Answer where
  /-- An IE. -/
  | ie (ti : TagInst) (value : List UInt8)
  /-- A tag. -/
  | tag (ti : TagInst)
  /-- There are no more IEs. -/
  | nothing
  | error (e : Errno)
  | void
  /-- The function does not return. -/
  | crash
  deriving DecidableEq

/-- A list of IEs that is read: all of them, and those that are still to come. -/
structure Reader where
  all : List (TagInst × List UInt8)
  todo : List (TagInst × List UInt8)

/-- The first IE with this tag and instance, and what comes after it. -/
def firstOf (ti : TagInst) : List (TagInst × List UInt8) → Option (List UInt8 × List (TagInst × List UInt8))
  | [] => none
  | x :: l => if x.1 = ti then some (x.2, l) else firstOf ti l

/-- How such a reader answers. After the last IE it tells that there is none, and then begins again; looking for a tag that does
not follow, and peeking, leaves it where it was. -/
def Reader.answer (r : Reader) : Call → Answer × Reader
  | .next =>
    match r.todo with
    | [] => (.nothing, ⟨r.all, r.all⟩)
    | x :: l => (.ie x.1 x.2, ⟨r.all, l⟩)
  | .peek =>
    match r.todo with
    | [] => (.error .ENOENT, r)
    | x :: _ => (.tag x.1, r)
  | .find ti =>
    match firstOf ti r.todo with
    | none => (.error .ENOENT, r)
    | some (v, l) => (.ie ti v, ⟨r.all, l⟩)
  | .start => (.void, ⟨r.all, r.all⟩)

/-- All answers to a sequence of calls. -/
def Reader.answers : Reader → List Call → List Answer
  | _, [] => []
  | r, c :: cs => (r.answer c).1 :: (r.answer c).2.answers cs

end Verif.Spec

namespace Verif
open Spec

/-- What osmo_gtlv_load_next() and osmo_gtlv_load_next_by_tag_inst() (gtlv.c:125-155, 204-218) tell their caller: the return
value and, if it is 0, `gtlv->ti`, `gtlv->val`, `gtlv->len`. -/
def loadAnswer (g : Load) : Out Load → Answer × Load
  | .ok g' => (if g'.val.isNone then .nothing else .ie g'.ti g'.valueBytes, g')
  | .err e g' => (.error e, g')
  | _ => (.crash, g)

/-- One call of a function of the library (gtlv.c:125-155, 165-189, 204-218, gtlv.h:137-140) and what it returns. -/
def Load.answer (g : Load) : Call → Answer × Load
  | .next => loadAnswer g (loadNext g)
  | .peek =>
    match peekTag g with
    | .ok ti => (.tag ti, g)
    | .err e => (.error e, g)
    | _ => (.crash, g)
  | .find ti => loadAnswer g (nextByTagInst g ti)
  | .start => (.void, g.start)

/-- The answers to calls one after the other. -/
def Load.answers : Load → List Call → List Answer
  | _, [] => []
  | g, c :: cs => (g.answer c).1 :: (g.answer c).2.answers cs

end Verif

namespace Verif.Props
open Verif Spec

variable {A : Type} {c : Cfg} {tl : TagInst → Nat → List UInt8} {ok : TagInst → Nat → Prop}

theorem firstOf_none {ti : TagInst} : ∀ {l : List (TagInst × List UInt8)}, (∀ x ∈ l, x.1 ≠ ti) → firstOf ti l = none
  | [], _ => rfl
  | x :: l, h => by
    rw [firstOf, if_neg (h x (.head _))]
    exact firstOf_none fun y hy => h y (.tail _ hy)

theorem firstOf_some {ti : TagInst} {v post} : ∀ {pre : List (TagInst × List UInt8)}, (∀ x ∈ pre, x.1 ≠ ti) →
    firstOf ti (pre ++ (ti, v) :: post) = some (v, post)
  | [], _ => by rw [List.nil_append, firstOf, if_pos rfl]
  | x :: l, h => by
    rw [List.cons_append, firstOf, if_neg (h x (.head _))]
    exact firstOf_some fun y hy => h y (.tail _ hy)

theorem nextByTagLoop_val {ti : TagInst} : ∀ {fuel : Nat} {g g' : Load}, nextByTagLoop ti fuel g = .ok g' → g'.val ≠ none
  | 0, _, _, h => by cases h
  | fuel + 1, g, g', h => by
    unfold nextByTagLoop at h
    split at h
    · split at h
      · cases h
      · rename_i hv
        split at h
        · cases h; rw [hv]; simp
        · exact nextByTagLoop_val h
    all_goals cases h

/-- The loader is where the reader is. -/
structure Same (c : Cfg) (tl : TagInst → Nat → List UInt8) (ok : TagInst → Nat → Prop) (g : Load) (r : Reader) : Prop where
  at_ : g.At c (inFormat tl r.todo)
  start : g.start.At c (inFormat tl r.all)
  todo : Expressible ok r.todo
  all : Expressible ok r.all

theorem start_at {g g' : Load} {bs bs' : List UInt8} (h : g.start.At c bs) (h' : g'.At c bs') (hm : g'.mem = g.mem) (hs : g'.srcLen = g.srcLen) :
    g'.start.At c bs := by
  refine ⟨h'.cfg, h'.window, Nat.zero_le _, ?_⟩
  rw [← h.rest]
  unfold Load.rest Load.pos Load.start
  dsimp only
  rw [hm, hs]

theorem Same.step {g : Load} {r : Reader} (hl : Loads c tl ok) (h : Same c tl ok g r) (call : Call) :
    (g.answer call).1 = (r.answer call).1 ∧ Same c tl ok (g.answer call).2 (r.answer call).2 := by
  obtain ⟨all, todo⟩ := r
  cases call with
  | next =>
    cases todo with
    | nil =>
      have e := Format.Load.At.done h.at_
      simp only [Load.answer, Reader.answer, e, loadAnswer]
      exact ⟨rfl, h.start, h.start, h.all, h.all⟩
    | cons x l =>
      have ha := h.at_
      rw [inFormat_cons] at ha
      obtain ⟨g', e1, e2, e3, e4, e5, e6, e7, e8, -⟩ := Format.Load.At.next hl (h.todo x (.head _)) ha
      simp only [Load.answer, Reader.answer, e1, loadAnswer, e4]
      exact ⟨by rw [e3, e8]; rfl, e2, start_at h.start e2 e6 e7, fun y hy => h.todo y (.tail _ hy), h.all⟩
  | peek =>
    cases todo with
    | nil =>
      have hp : g.pos = g.srcLen := by
        have hx := Load.rest_length h.at_.window
        rw [h.at_.rest] at hx
        have := h.at_.pos_le
        simp [inFormat] at hx
        omega
      have e : peekTag g = .err .ENOENT := by
        unfold peekTag
        rw [nextTlValid_eq]
        simp [hp]
      simp only [Load.answer, Reader.answer, e]
      exact ⟨trivial, h⟩
    | cons x l =>
      have ha := h.at_
      rw [inFormat_cons] at ha
      have e := Format.peekTag_at hl (h.todo x (.head _)) ha
      simp only [Load.answer, Reader.answer, e]
      exact ⟨trivial, h⟩
  | start => exact ⟨rfl, h.start, start_at h.start h.start rfl rfl, h.all, h.all⟩
  | find ti =>
    have ha : g.At c (tlvBytes tl todo ++ []) := by rw [inFormat_eq, List.append_nil]; exact h.at_
    have hlen : todo.length ≤ g.srcLen := by
      have h1 := Load.rest_length ha.window
      rw [ha.rest] at h1
      have : todo.length ≤ (tlvBytes tl todo).length := Format.tlvs_length_ge hl h.todo
      simp at h1; omega
    rcases Format.nextByTagLoop_at hl ti todo [] h.todo (.inl rfl) g (g.srcLen + 2) ha (by omega) with
      ⟨pre, v, post, g', rfl, e2, e3, e4, e5, e6, e7⟩ | ⟨e1, _, e3⟩ | ⟨_, e2, _⟩
    · have e8 : nextByTagInst g ti = .ok g' := by unfold nextByTagInst; rw [e3]
      rw [List.append_nil, inFormat_eq] at e4
      have hv : g'.val.isNone = false := by
        cases hv : g'.val with
        | some _ => rfl
        | none =>
          exact absurd hv (nextByTagLoop_val e3)
      have hb : g'.valueBytes = v := by
        obtain ⟨t, ht⟩ := e5.mem
        unfold Load.valueMem at ht
        unfold Load.valueBytes
        cases hv : g'.val with
        | none => 
          rw [hv] at ht; simp only at ht ⊢
          exact (List.nil_eq_append_iff.1 ht).1.symm
        | some o => rw [hv] at ht; simp only at ht ⊢; rw [ht, e5.len]; simp
      simp only [Load.answer, Reader.answer, e8, loadAnswer, hv, firstOf_some e2, e5.ti, hb]
      exact ⟨rfl, e4, start_at h.start e4 e6 e7, fun y hy => h.todo y (by simp [hy]), h.all⟩
    · have e8 : nextByTagInst g ti = .err .ENOENT g := by unfold nextByTagInst; rw [e3]
      simp only [Load.answer, Reader.answer, e8, loadAnswer, firstOf_none e1]
      exact ⟨trivial, h⟩
    · exact absurd rfl e2

/-- C115: a loader for a window that holds the IEs `ies` answers each sequence of calls - of osmo_gtlv_load_next(),
osmo_gtlv_load_peek_tag(), osmo_gtlv_load_next_by_tag_inst() and osmo_gtlv_load_start(), in any order - like a reader of that
list. (`rest` is what follows the window in memory.) -/
theorem C115_like_a_reader (hl : Loads c tl ok) (ies : List (TagInst × List UInt8)) (hx : Expressible ok ies)
    (rest : List UInt8) (calls : List Call) :
    (fresh c (inFormat tl ies ++ rest) (inFormat tl ies).length).answers calls = (Reader.mk ies ies).answers calls := by
  have key : ∀ (calls : List Call) (g : Load) (r : Reader), Same c tl ok g r → g.answers calls = r.answers calls := by
    intro calls
    induction calls with
    | nil => intros; rfl
    | cons call calls ih =>
      intro g r h
      obtain ⟨h1, h2⟩ := h.step hl call
      rw [Load.answers, Reader.answers, h1, ih _ _ h2]
  exact key calls _ _ ⟨fresh_at .., fresh_at .., hx, hx⟩

/-! ### Errors -/

/-- The next IE cannot be read. -/
def Broken (g : Load) : Prop :=
  (∃ e, nextTlValid g = .error e) ∨
  ∃ i n e, nextTlValid g = .ok (i, n) ∧ n ≠ 0 ∧ g.cfg.loadTl (g.mem.drop i) n = .err e

theorem Broken.next {g : Load} (h : Broken g) : ∃ e g', loadNext g = .err e g' ∧ Broken g' := by
  rcases h with ⟨e, h⟩ | ⟨i, n, e, h, hn, he⟩
  · exact ⟨e, g, by unfold loadNext; rw [h], .inl ⟨e, h⟩⟩
  · refine ⟨e, { g with ti := default }, by unfold loadNext; rw [h]; simp only [if_neg hn, he], .inr ⟨i, n, e, ?_, hn, he⟩⟩
    rw [← h]
    rfl

theorem Broken.answer {g : Load} (h : Broken g) {call : Call} (hc : call ≠ .start) :
    ∃ e, (g.answer call).1 = .error e ∧ Broken (g.answer call).2 := by
  cases call with
  | start => exact absurd rfl hc
  | next =>
    obtain ⟨e, g', h1, h2⟩ := h.next
    exact ⟨e, by rw [Load.answer, h1]; exact ⟨rfl, h2⟩⟩
  | peek =>
    rw [Load.answer]
    rcases h with ⟨e, h'⟩ | ⟨i, n, e, h', hn, he⟩
    · have : peekTag g = .err e := by unfold peekTag; rw [h']
      rw [this]
      exact ⟨e, rfl, .inl ⟨e, h'⟩⟩
    · have : peekTag g = .err .EBADMSG := by unfold peekTag; rw [h']; simp only [if_neg hn, he]
      rw [this]
      exact ⟨_, rfl, .inr ⟨i, n, e, h', hn, he⟩⟩
  | find ti =>
    obtain ⟨e, g', h1, h2⟩ := h.next
    have : nextByTagInst g ti = .err e g := by
      unfold nextByTagInst
      rw [nextByTagLoop, h1]
    rw [Load.answer, this]
    exact ⟨e, rfl, h⟩

theorem broken_of_error {g g' : Load} {e} (h : loadNext g = .err e g') : Broken g' := by
  unfold loadNext at h
  split at h
  · rename_i e' h'
    cases h
    exact .inl ⟨_, h'⟩
  · rename_i i n h'
    split at h
    · cases h
    · rename_i hn
      split at h
      · rename_i t ht
        split at h
        · cases h
          rename_i hlt
          refine .inl ⟨.ENOSPC, ?_⟩
          unfold nextTlValid
          exact if_pos hlt
        · cases h
      · rename_i he
        cases h
        exact .inr ⟨i, n, _, (by rw [← h']; rfl), hn, he⟩
      all_goals cases h

/-- C115: once osmo_gtlv_load_next() has returned an error, all further calls do, until osmo_gtlv_load_start(): no IE is read
from behind the one that is not valid. (For a load_tl() that fails this supposes that it leaves `len` and `val` alone.) -/
theorem C115_errors_stay {g g' : Load} {e} (h : loadNext g = .err e g') {calls : List Call} (hc : ∀ x ∈ calls, x ≠ .start) :
    ∀ a ∈ g'.answers calls, ∃ e', a = .error e' := by
  have key : ∀ (calls : List Call) (g : Load), Broken g → (∀ x ∈ calls, x ≠ .start) → ∀ a ∈ g.answers calls, ∃ e', a = .error e' := by
    intro calls
    induction calls with
    | nil => intro g _ _ a ha; cases ha
    | cons call calls ih =>
      intro g hb hc a ha
      obtain ⟨e', h1, h2⟩ := hb.answer (hc call (.head _))
      rw [Load.answers] at ha
      rcases List.mem_cons.1 ha with rfl | ha
      · exact ⟨e', h1⟩
      · exact ih _ h2 (fun x hx => hc x (.tail _ hx)) a ha
  exact key calls g' (broken_of_error h) hc

/-- Loaders that are at the start of the same window, or are the same. -/
def Alike' (g g' : Load) : Prop :=
  g = g' ∨ (g.val = none ∧ g'.val = none ∧ g.cfg = g'.cfg ∧ g.mem = g'.mem ∧ g.srcLen = g'.srcLen)

theorem Alike'.answer {g g' : Load} (h : Alike' g g') (call : Call) :
    (g.answer call).1 = (g'.answer call).1 ∧ Alike' (g.answer call).2 (g'.answer call).2 := by
  rcases h with rfl | ⟨h1, h2, h3, h4, h5⟩
  · exact ⟨rfl, .inl rfl⟩
  obtain ⟨cfg, mem, srcLen, ti, val, len⟩ := g
  obtain ⟨cfg', mem', srcLen', ti', val', len'⟩ := g'
  dsimp only at h1 h2 h3 h4 h5
  subst h1 h2 h3 h4 h5
  have hv : nextTlValid ⟨cfg, mem, srcLen, ti, none, len⟩ = nextTlValid ⟨cfg, mem, srcLen, ti', none, len'⟩ := rfl
  cases call with
  | start => exact ⟨rfl, .inr ⟨rfl, rfl, rfl, rfl, rfl⟩⟩
  | peek =>
    have : peekTag ⟨cfg, mem, srcLen, ti, none, len⟩ = peekTag ⟨cfg, mem, srcLen, ti', none, len'⟩ := rfl
    rw [Load.answer, Load.answer, this]
    cases peekTag ⟨cfg, mem, srcLen, ti', none, len'⟩ <;> exact ⟨rfl, .inr ⟨rfl, rfl, rfl, rfl, rfl⟩⟩
  | next =>
    rw [Load.answer, Load.answer]
    unfold loadNext
    rw [hv]
    cases nextTlValid ⟨cfg, mem, srcLen, ti', none, len'⟩ with
    | error e => exact ⟨rfl, .inr ⟨rfl, rfl, rfl, rfl, rfl⟩⟩
    | ok x =>
      obtain ⟨i, n⟩ := x
      dsimp only
      by_cases hn : n = 0
      · rw [if_pos hn, if_pos hn]
        exact ⟨rfl, .inr ⟨rfl, rfl, rfl, rfl, rfl⟩⟩
      · rw [if_neg hn, if_neg hn]
        cases cfg.loadTl (mem.drop i) n with
        | ok t =>
          dsimp only
          split <;> exact ⟨rfl, .inl rfl⟩
        | err e => exact ⟨rfl, .inr ⟨rfl, rfl, rfl, rfl, rfl⟩⟩
        | abort => exact ⟨rfl, .inr ⟨rfl, rfl, rfl, rfl, rfl⟩⟩
        | ub => exact ⟨rfl, .inr ⟨rfl, rfl, rfl, rfl, rfl⟩⟩
        | diverge => exact ⟨rfl, .inr ⟨rfl, rfl, rfl, rfl, rfl⟩⟩
  | find t =>
    have : nextByTagLoop t (srcLen + 2) ⟨cfg, mem, srcLen, ti, none, len⟩ =
        nextByTagLoop t (srcLen + 2) ⟨cfg, mem, srcLen, ti', none, len'⟩ := by
      unfold nextByTagLoop loadNext
      rw [hv]
      cases nextTlValid ⟨cfg, mem, srcLen, ti', none, len'⟩ with
      | error e => rfl
      | ok x =>
        obtain ⟨i, n⟩ := x
        dsimp only
        by_cases hn : n = 0
        · rw [if_pos hn, if_pos hn]
        · rw [if_neg hn, if_neg hn]
          cases cfg.loadTl (mem.drop i) n <;> rfl
    rw [Load.answer, Load.answer]
    unfold nextByTagInst
    dsimp only
    rw [this]
    cases nextByTagLoop t (srcLen + 2) ⟨cfg, mem, srcLen, ti', none, len'⟩ with
    | ok w => exact ⟨rfl, .inl rfl⟩
    | err e => exact ⟨rfl, .inr ⟨rfl, rfl, rfl, rfl, rfl⟩⟩
    | abort => exact ⟨rfl, .inr ⟨rfl, rfl, rfl, rfl, rfl⟩⟩
    | ub => exact ⟨rfl, .inr ⟨rfl, rfl, rfl, rfl, rfl⟩⟩
    | diverge => exact ⟨rfl, .inr ⟨rfl, rfl, rfl, rfl, rfl⟩⟩

/-- C115: osmo_gtlv_load_start() makes any loader begin anew. -/
theorem C115_start_anew (g : Load) (calls : List Call) : g.start.answers calls = (fresh g.cfg g.mem g.srcLen).answers calls := by
  have key : ∀ (calls : List Call) (g g' : Load), Alike' g g' → g.answers calls = g'.answers calls := by
    intro calls
    induction calls with
    | nil => intros; rfl
    | cons call calls ih =>
      intro g g' h
      obtain ⟨h1, h2⟩ := h.answer call
      rw [Load.answers, Load.answers, h1, ih _ _ h2]
  exact key calls _ _ (.inr ⟨rfl, rfl, rfl, rfl, rfl⟩)

/-! Two IEs, and all calls in some order: each IE once, then the end, then the first one again; a tag that does not follow leaves
the loader where it is. -/
example : (fresh t8l8v ([1, 2, 0xaa, 0xbb, 7, 0] ++ [9, 9, 9]) 6).answers
      [.peek, .next, .find ⟨1, none⟩, .peek, .next, .peek, .next, .next, .find ⟨7, none⟩, .start, .find ⟨7, none⟩] =
    [.tag ⟨1, none⟩, .ie ⟨1, none⟩ [0xaa, 0xbb], .error .ENOENT, .tag ⟨7, none⟩, .ie ⟨7, none⟩ [], .error .ENOENT, .nothing,
      .ie ⟨1, none⟩ [0xaa, 0xbb], .ie ⟨7, none⟩ [], .void, .ie ⟨7, none⟩ []] := by decide +kernel

example : Loads t8l8v hdr8 dom8 ∧ Expressible dom8 [(⟨1, none⟩, [0xaa, 0xbb]), (⟨7, none⟩, [])] ∧
    inFormat hdr8 [(⟨1, none⟩, [0xaa, 0xbb]), (⟨7, none⟩, [])] = [1, 2, 0xaa, 0xbb, 7, 0] :=
  ⟨C110_library_formats.1, by intro x hx; simp at hx; rcases hx with rfl | rfl <;> simp [dom8], by decide +kernel⟩

/-! A length beyond the window, then what seems to be a good IE: it is not reached. -/
example : (fresh t8l8v [1, 1, 0xaa, 2, 9, 3, 0] 7).answers [.next, .next, .next, .peek, .find ⟨3, none⟩, .start, .next] =
    [.ie ⟨1, none⟩ [0xaa], .error .EBADMSG, .error .ENOSPC, .error .ENOSPC, .error .ENOSPC, .void, .ie ⟨1, none⟩ [0xaa]] := by
  decide +kernel

end Verif.Props
