/-
Lemmas about error reporting: ordered decoding reports its failures, except one.
-/
import Verif.ReportBlame

namespace Verif
open Spec Props

variable {A : Type}

section
variable {c : Cfg} {hdr : TagInst → Nat → List UInt8} {dom : TagInst → Nat → Prop}

/-- A loader on the window `o`. -/
structure Load.Over (g : Load) (c : Cfg) (o : List UInt8) : Prop where
  cfg : g.cfg = c
  window : g.srcLen ≤ g.mem.length
  octets : g.mem.take g.srcLen = o
  pos_le : g.pos ≤ g.srcLen

/-- The IE that was loaded last ends where the loader is. -/
def Load.Just (g : Load) (hdr : TagInst → Nat → List UInt8) (o : List UInt8) : Prop :=
  ∃ pre v, o = pre ++ (hdr g.ti v.length ++ v) ++ g.rest

theorem Load.Over.next (h : c.Lawful hdr dom) {g g' : Load} {o : List UInt8} (ho : g.Over c o) (hl : loadNext g = .ok g') :
    g'.Over c o ∧ (g'.val ≠ none → g'.Just hdr o) := by
  rcases loadNext_cases h g ho.cfg ho.window with ⟨_, h2⟩ | ⟨h1, h2⟩ | ⟨_, _, h2⟩ | ⟨h1, h2, ti, len, hd, ht, ⟨_, h3⟩ | ⟨h3, h4⟩⟩
  · rw [h2] at hl; cases hl
  · rw [h2] at hl
    cases hl
    exact ⟨⟨ho.cfg, ho.window, ho.octets, by simp [Load.pos]⟩, fun h => absurd rfl h⟩
  · rw [h2] at hl; cases hl
  · rw [h3] at hl; cases hl
  · rw [h4] at hl
    cases hl
    refine ⟨⟨ho.cfg, ho.window, ho.octets, h3⟩, fun _ => ?_⟩
    have hol : o.length = g.srcLen := by rw [← ho.octets, List.length_take]; have := ho.window; omega
    have hr : g.rest = o.drop g.pos := by unfold Load.rest; rw [ho.octets]
    rw [hr] at ht
    refine ⟨o.take g.pos, (o.drop (g.pos + c.tlMin)).take len, ?_⟩
    have hvl : ((o.drop (g.pos + c.tlMin)).take len).length = len := by simp; omega
    have hr' : Load.rest { g with ti := ti, len := len, val := some (g.pos + c.tlMin) } = o.drop (g.pos + c.tlMin + len) := by
      show List.drop (g.pos + c.tlMin + len) (g.mem.take g.srcLen) = _
      rw [ho.octets]
    have e1 : o.drop (g.pos + c.tlMin + len) = (o.drop (g.pos + c.tlMin)).drop len := by rw [List.drop_drop]
    have e2 : o.drop (g.pos + c.tlMin) = (o.drop g.pos).drop c.tlMin := by rw [List.drop_drop]
    show o = _ ++ (hdr ti _ ++ _) ++ _
    rw [hvl, hr', ← ht, List.append_assoc, List.append_assoc, e1, List.take_append_drop, e2, List.take_append_drop,
      List.take_append_drop]

theorem nextByTagLoop_on (h : c.Lawful hdr dom) (ti : TagInst) {o : List UInt8} : ∀ (fuel : Nat) (g w : Load), g.Over c o →
    nextByTagLoop ti fuel g = .ok w → w.Over c o ∧ w.Just hdr o ∧ w.ti = ti := by
  intro fuel
  induction fuel with
  | zero => intro g w _ hl; cases hl
  | succ fuel ih =>
    intro g w ho hl
    simp only [nextByTagLoop] at hl
    cases hn : loadNext g with
    | ok g' =>
      rw [hn] at hl
      simp only at hl
      obtain ⟨h1, h2⟩ := ho.next h hn
      cases hv : g'.val with
      | none => rw [hv] at hl; cases hl
      | some v =>
        rw [hv] at hl
        simp only at hl
        by_cases ht : g'.ti.cmp ti = 0
        · rw [if_pos ht] at hl
          cases hl
          exact ⟨h1, h2 (by rw [hv]; simp), (TagInst.cmp_eq_zero ..).1 ht⟩
        · rw [if_neg ht] at hl
          exact ih g' w h1 hl
    | _ => rw [hn] at hl; cases hl

/-- A repeated IE is followed by an IE of the same tag that is not complete. -/
def CutShort (hdr : TagInst → Nat → List UInt8) (dom : TagInst → Nat → Prop) (tl : Nat) (table : List (RCoding A)) (o : List UInt8) : Prop :=
  ∃ c ∈ table, (∃ max m, c.c.kind = .multi max m) ∧
    ∃ pre v junk n, o = pre ++ (hdr c.c.ti v.length ++ v) ++ junk ∧ tl ≤ junk.length ∧ junk.length < tl + n ∧
      junk.take tl = hdr c.c.ti n ∧ dom c.c.ti n

/-- What is reported. -/
structure Good (hdr : TagInst → Nat → List UInt8) (dom : TagInst → Nat → Prop) (tl : Nat) (table : List (RCoding A)) (o : List UInt8)
    (x : Rep (Struct A)) : Prop where
  ok : ∀ s, x.1 = .ok s → x.2 = []
  err : ∀ rc, x.1 = .err rc → (∃ l r, x.2 = l ++ [r] ∧ r.rc = rc ∧ ∃ c ∈ table, r.ti = c.c.ti) ∨
    (x.2 = [] ∧ rc = .EBADMSG ∧ CutShort hdr dom tl table o)

theorem Good.fail {tl : Nat} {table : List (RCoding A)} {o : List UInt8} {c : RCoding A} (hc : c ∈ table) (rc : Errno)
    (t : Complaint) : Good hdr dom tl table o (returnError rc c.c.ti t) where
  ok := nofun
  err := by
    intro rc' h
    cases h
    exact .inl ⟨[], _, rfl, rfl, c, hc, rfl⟩

theorem Good.bind {tl : Nat} {table : List (RCoding A)} {o : List UInt8} {α} {x : Rep α} {f : α → Rep (Struct A)}
    (h1 : ∀ a, x.1 = .ok a → x.2 = [])
    (h2 : ∀ rc, x.1 = .err rc → ∃ l r, x.2 = l ++ [r] ∧ r.rc = rc ∧ ∃ c ∈ table, r.ti = c.c.ti)
    (h3 : ∀ a, x.1 = .ok a → Good hdr dom tl table o (f a)) : Good hdr dom tl table o (x.bind f) := by
  obtain ⟨r, l⟩ := x
  cases r with
  | ok a =>
    have hl : l = [] := h1 a rfl
    subst hl
    rw [Rep.bind_ok]
    exact h3 a rfl
  | err e => exact ⟨nofun, fun rc h => (by cases h; exact .inl (h2 e rfl))⟩
  | _ => exact ⟨nofun, nofun⟩

theorem findLaterR_spec {ti : TagInst} : ∀ {cs : List (RCoding A)} {k : Nat} {c' : RCoding A} {cs' : List (RCoding A)},
    findLaterR ti cs = some (k, c', cs') → c' ∈ cs ∧ (∀ x ∈ cs', x ∈ cs) ∧ c'.c.ti = ti := by
  intro cs
  induction cs with
  | nil => nofun
  | cons d cs ih =>
    intro k c' cs' h
    simp only [findLaterR] at h
    by_cases hd : tagInstCmp (some ti) (some d.c.ti) = 0
    · rw [if_pos hd] at h
      simp only [Option.some.injEq, Prod.mk.injEq] at h
      obtain ⟨_, rfl, rfl⟩ := h
      exact ⟨by simp, fun x hx => by simp [hx], (cmp_eq.1 hd).symm⟩
    · rw [if_neg hd] at h
      cases hf : findLaterR ti cs with
      | none => rw [hf] at h; cases h
      | some r =>
        obtain ⟨k0, c0, cs0⟩ := r
        rw [hf] at h
        simp only [Option.map_some, Option.some.injEq, Prod.mk.injEq] at h
        obtain ⟨_, rfl, rfl⟩ := h
        obtain ⟨a, b, d⟩ := ih hf
        exact ⟨by simp [a], fun x hx => by simp [b x hx], d⟩

/-- The tag seen ahead is the tag of the IE. -/
theorem peekTag_ti (h : c.Lawful hdr dom) {g : Load} (hc : g.cfg = c) (hw : g.srcLen ≤ g.mem.length) (h1 : g.pos < g.srcLen)
    (h2 : c.tlMin ≤ g.srcLen - g.pos) {ti : TagInst} {len : Nat} (hd : dom ti len) (ht : g.rest.take c.tlMin = hdr ti len)
    {t : TagInst} (hp : peekTag g = .ok t) : ti = t := by
  subst hc
  unfold peekTag at hp
  rw [nextTlValid_eq, if_neg (by omega), if_neg (by omega)] at hp
  simp only at hp
  rw [if_neg (by omega)] at hp
  obtain ⟨tl, l1, _, l3, l4⟩ := h.load (g.mem.drop g.pos) (g.srcLen - g.pos) (by simp; omega)
  rw [l1] at hp
  cases hp
  have : g.rest.take g.cfg.tlMin = (g.mem.drop g.pos).take g.cfg.tlMin := by
    simp only [Load.rest, List.drop_take, List.take_take]
    congr 1
    omega
  rw [this, l4] at ht
  exact (h.inj _ _ _ _ l3 hd ht).1.symm

theorem orderedR_good (h : c.Lawful hdr dom) {table : List (RCoding A)} (hs : ∀ c ∈ table, Silent c) {o : List UInt8} :
    ∀ fuel : Nat,
    (∀ (cs : List (RCoding A)) done g, (∀ x ∈ cs, x ∈ table) → g.Over c o →
      Good hdr dom c.tlMin table o (decodeOrderedOuterR fuel cs done g)) ∧
    (∀ (pos : OrdPosR A) g, pos.c ∈ table → (∀ x ∈ pos.cs, x ∈ table) → g.ti = pos.c.c.ti → g.Over c o → g.Just hdr o →
      Good hdr dom c.tlMin table o (decodeOrderedInnerR fuel pos g)) := by
  intro fuel
  induction fuel with
  | zero =>
    refine ⟨fun cs done g _ _ => ?_, fun pos g _ _ _ _ _ => ⟨nofun, nofun⟩⟩
    cases cs <;> exact ⟨nofun, nofun⟩
  | succ fuel ih =>
    refine ⟨fun cs done g hcs ho => ?_, fun pos g hc hcs hti ho hj => ?_⟩
    · cases cs with
      | nil => exact ⟨fun _ _ => rfl, nofun⟩
      | cons x cs =>
        have hx := hcs x (by simp)
        have hcs' : ∀ y ∈ cs, y ∈ table := fun y hy => hcs y (by simp [hy])
        simp only [decodeOrderedOuterR]
        unfold nextByTagInst
        cases hn : nextByTagLoop x.c.ti (g.srcLen + 2) g with
        | ok g' =>
          obtain ⟨a, b, d⟩ := nextByTagLoop_on h x.c.ti _ g g' ho hn
          exact ih.2 _ g' hx hcs' d a b
        | err e =>
          cases e with
          | ENOENT =>
            simp only
            cases x.c.kind with
            | opt => exact ih.1 _ _ _ hcs' ho
            | mand => exact Good.fail hx _ _
            | multi a b =>
              simp only
              split
              · exact Good.fail hx _ _
              · exact ih.1 _ _ _ hcs' ho
          | _ => exact Good.fail hx _ _
        | abort => exact ⟨nofun, nofun⟩
        | ub => exact ⟨nofun, nofun⟩
        | diverge => exact ⟨nofun, nofun⟩
    · simp only [decodeOrderedInnerR]
      refine Good.bind ?_ ?_ ?_
      · intro p hp
        unfold ordTargetR at hp ⊢
        cases hk : pos.c.c.kind with
        | multi max m =>
          rw [hk] at hp
          simp only at hp ⊢
          split at hp
          · rw [if_pos (by assumption)]
            cases hf : findLaterR g.ti pos.cs with
            | none => rw [hf] at hp; cases hp
            | some r => rfl
          · rw [if_neg (by assumption)]
        | _ => rfl
      · intro rc hp
        unfold ordTargetR at hp ⊢
        cases hk : pos.c.c.kind with
        | multi max m =>
          rw [hk] at hp
          simp only at hp ⊢
          split at hp
          · rw [if_pos (by assumption)]
            cases hf : findLaterR g.ti pos.cs with
            | none =>
              rw [hf] at hp
              cases hp
              exact ⟨[], _, rfl, rfl, pos.c, hc, rfl⟩
            | some r => rw [hf] at hp; cases hp
          · cases hp
        | _ => rw [hk] at hp; cases hp
      · intro pos' hp
        -- the position found
        have hpos : pos'.c ∈ table ∧ (∀ x ∈ pos'.cs, x ∈ table) ∧ g.ti = pos'.c.c.ti := by
          unfold ordTargetR at hp
          cases hk : pos.c.c.kind with
          | multi max m =>
            rw [hk] at hp
            simp only at hp
            split at hp
            · cases hf : findLaterR g.ti pos.cs with
              | none => rw [hf] at hp; cases hp
              | some r =>
                obtain ⟨k, c', cs'⟩ := r
                rw [hf] at hp
                cases hp
                obtain ⟨a, b, d⟩ := findLaterR_spec hf
                exact ⟨hcs _ a, fun x hx => hcs x (b x hx), d.symm⟩
            · cases hp; exact ⟨hc, hcs, hti⟩
          | _ => rw [hk] at hp; cases hp; exact ⟨hc, hcs, hti⟩
        clear hp
        obtain ⟨hc', hcs', hti'⟩ := hpos
        cases hd : pos'.c.c.dec with
        | none => exact Good.fail hc' _ _
        | some d =>
          simp only
          refine Good.bind ?_ ?_ ?_
          · intro v hv
            cases hx : d g.valueMem g.len with
            | ok w => exact hs _ hc' d hd _ _ w hx
            | _ => rw [hx] at hv; cases hv
          · intro rc hv
            cases hx : d g.valueMem g.len with
            | err e => rw [hx] at hv; cases hv; exact ⟨_, _, rfl, rfl, pos'.c, hc', rfl⟩
            | _ => rw [hx] at hv; cases hv
          · intro v _
            refine Good.bind (fun _ _ => rfl) ?_ ?_
            · intro rc hv
              unfold storeVal at hv
              simp only at hv
              split at hv <;> cases hv
            · intro s _
              cases hk : pos'.c.c.kind with
              | multi max m =>
                simp only
                cases hpk : peekTag g with
                | ok ti =>
                  simp only
                  split
                  · exact ih.1 _ _ _ hcs' ho
                  · have ht : ti = g.ti := (TagInst.cmp_eq_zero ..).1 (by simpa using (by assumption : ¬ ti.cmp g.ti ≠ 0))
                    subst ht
                    cases hl : loadNext g with
                    | ok g' =>
                      obtain ⟨a, b⟩ := ho.next h hl
                      -- it is the IE that was seen ahead
                      rcases loadNext_cases h g ho.cfg ho.window with ⟨_, h2⟩ | ⟨h1, h2⟩ | ⟨_, _, h2⟩ |
                        ⟨h1, h2, ti, len, hdm, htk, ⟨_, h3⟩ | ⟨h3, h4⟩⟩
                      · rw [h2] at hl; cases hl
                      · exfalso
                        unfold peekTag at hpk
                        rw [nextTlValid_eq] at hpk
                        simp [h1] at hpk
                      · rw [h2] at hl; cases hl
                      · rw [h3] at hl; cases hl
                      · rw [h4] at hl
                        cases hl
                        have hpt : ti = g.ti := peekTag_ti h ho.cfg ho.window h1 h2 hdm htk hpk
                        exact ih.2 { pos' with s := s } _ hc' hcs' (hpt.trans hti') a (b (by simp))
                    | err e g' =>
                      refine ⟨nofun, fun rc hrc => ?_⟩
                      cases hrc
                      rcases loadNext_cases h g ho.cfg ho.window with ⟨h1, h2⟩ | ⟨h1, h2⟩ | ⟨h1, h1', h2⟩ |
                        ⟨h1, h2, ti, len, hdm, htk, ⟨h3', h3⟩ | ⟨h3, h4⟩⟩
                      · have := ho.pos_le; omega
                      · rw [h2] at hl; cases hl
                      · exfalso
                        unfold peekTag at hpk
                        rw [nextTlValid_eq] at hpk
                        rw [← ho.cfg] at h1'
                        rw [if_neg (by omega), if_pos ⟨by omega, h1'⟩] at hpk
                        cases hpk
                      · rw [h3] at hl
                        cases hl
                        have hpt : ti = g.ti := peekTag_ti h ho.cfg ho.window h1 h2 hdm htk hpk
                        obtain ⟨pre, v, hpre⟩ := hj
                        have hrl := Load.rest_length ho.window
                        refine .inr ⟨rfl, rfl, pos'.c, hc', ⟨max, m, hk⟩, pre, v, g.rest, len, ?_, by omega, by omega, ?_, ?_⟩
                        · rw [← hti']; exact hpre
                        · rw [← hti', ← hpt]; exact htk
                        · rw [← hti', ← hpt]; exact hdm
                      · rw [h4] at hl; cases hl
                    | _ => exact ⟨nofun, nofun⟩
                | err e => exact ih.1 _ _ _ hcs' ho
                | _ => exact ⟨nofun, nofun⟩
              | _ => exact ih.1 _ _ _ hcs' ho

end

/-! ### Success is not reported -/

theorem ordTargetR_silent (pos : OrdPosR A) (ti : TagInst) : ∀ b, (ordTargetR pos ti).1 = .ok b → (ordTargetR pos ti).2 = [] := by
  intro b hp
  unfold ordTargetR at hp ⊢
  cases hk : pos.c.c.kind with
  | multi max m =>
    rw [hk] at hp
    simp only at hp ⊢
    split at hp
    · rw [if_pos (by assumption)]
      cases hf : findLaterR ti pos.cs with
      | none => rw [hf] at hp; cases hp
      | some r => rfl
    · rw [if_neg (by assumption)]
  | _ => rfl

theorem ordTargetR_mem {table : List (RCoding A)} {pos pos' : OrdPosR A} {ti : TagInst} (hc : pos.c ∈ table)
    (hcs : ∀ x ∈ pos.cs, x ∈ table) (hp : (ordTargetR pos ti).1 = .ok pos') : pos'.c ∈ table ∧ ∀ x ∈ pos'.cs, x ∈ table := by
  unfold ordTargetR at hp
  cases hk : pos.c.c.kind with
  | multi max m =>
    rw [hk] at hp
    simp only at hp
    split at hp
    · cases hf : findLaterR ti pos.cs with
      | none => rw [hf] at hp; cases hp
      | some r =>
        obtain ⟨k, c', cs'⟩ := r
        rw [hf] at hp
        cases hp
        obtain ⟨a, b, _⟩ := findLaterR_spec hf
        exact ⟨hcs _ a, fun x hx => hcs x (b x hx)⟩
    · cases hp; exact ⟨hc, hcs⟩
  | _ => rw [hk] at hp; cases hp; exact ⟨hc, hcs⟩

theorem orderedR_silent {table : List (RCoding A)} (hs : ∀ c ∈ table, Silent c) :
    ∀ fuel : Nat,
    (∀ (cs : List (RCoding A)) done g, (∀ x ∈ cs, x ∈ table) →
      ∀ b, (decodeOrderedOuterR fuel cs done g).1 = .ok b → (decodeOrderedOuterR fuel cs done g).2 = []) ∧
    (∀ (pos : OrdPosR A) g, pos.c ∈ table → (∀ x ∈ pos.cs, x ∈ table) →
      ∀ b, (decodeOrderedInnerR fuel pos g).1 = .ok b → (decodeOrderedInnerR fuel pos g).2 = []) := by
  intro fuel
  induction fuel with
  | zero =>
    refine ⟨fun cs done g _ => ?_, fun pos g _ _ => nofun⟩
    cases cs <;> nofun
  | succ fuel ih =>
    refine ⟨fun cs done g hcs => ?_, fun pos g hc hcs => ?_⟩
    · cases cs with
      | nil => exact fun _ _ => rfl
      | cons x cs =>
        have hx := hcs x (by simp)
        have hcs' : ∀ y ∈ cs, y ∈ table := fun y hy => hcs y (by simp [hy])
        simp only [decodeOrderedOuterR]
        cases nextByTagInst g x.c.ti with
        | ok g' => exact ih.2 _ g' hx hcs'
        | err e =>
          cases e with
          | ENOENT =>
            simp only
            cases x.c.kind with
            | opt => exact ih.1 _ _ _ hcs'
            | mand => exact nofun
            | multi a b =>
              simp only
              split
              · exact nofun
              · exact ih.1 _ _ _ hcs'
          | _ => exact nofun
        | _ => exact nofun
    · simp only [decodeOrderedInnerR]
      refine Rep.bind_silent (ordTargetR_silent pos g.ti) fun pos' hp => ?_
      obtain ⟨hc', hcs'⟩ := ordTargetR_mem hc hcs hp
      cases hd : pos'.c.c.dec with
      | none => exact nofun
      | some d =>
        simp only
        refine Rep.bind_silent ?_ fun v _ => Rep.bind_silent (fun _ _ => rfl) fun s _ => ?_
        · intro v hv
          cases hx : d g.valueMem g.len with
          | ok w => exact hs _ hc' d hd _ _ w hx
          | _ => rw [hx] at hv; cases hv
        · cases pos'.c.c.kind with
          | multi max m =>
            simp only
            cases peekTag g with
            | ok ti =>
              simp only
              split
              · exact ih.1 _ _ _ hcs'
              · cases loadNext g with
                | ok g' => exact ih.2 { pos' with s := s } _ hc' hcs'
                | _ => exact nofun
            | err e => exact ih.1 _ _ _ hcs'
            | _ => exact nofun
          | _ => exact ih.1 _ _ _ hcs'

theorem decodeOrderedR_silent {cs : List (RCoding A)} (hs : ∀ c ∈ cs, Silent c) (g : Load) :
    ∀ b, (decodeOrderedR cs g).1 = .ok b → (decodeOrderedR cs g).2 = [] :=
  (orderedR_silent hs _).1 cs [] g.start fun _ h => h

/-! ### Tables as the API has them -/

theorem Spec.Built.silent {c : RCoding A} (h : Built c) : Silent c := by
  induction h with
  | leaf c => intro d hd p n v hv; rfl
  | nested ti kind cfg ordered inner _ ih =>
    intro d hd p n v hv
    simp only [nestedRCoding, nestedCoding, Option.some.injEq] at hd
    subst hd
    rw [Res.bind_eq_ok_iff] at hv
    obtain ⟨s, h1, _⟩ := hv
    simp only [nestedRCoding, gtlvsDecodeR]
    cases ordered with
    | true => exact decodeOrderedR_silent ih _ s (by rw [decodeOrderedR_fst]; exact h1)
    | false => exact decodeUnorderedR_silent ih _ s (by rw [decodeUnorderedR_fst]; exact h1)

/-! ### Unordered decoding reports every failure -/

/-- An error is told by the last report. -/
structure Tells {α} (x : Rep α) : Prop where
  told : ∀ rc, x.1 = .err rc → ∃ l r, x.2 = l ++ [r] ∧ r.rc = rc

theorem Tells.fail {α} (rc : Errno) (ti : TagInst) (t : Complaint) : Tells (returnError rc ti t : Rep α) :=
  ⟨fun _ h => (by cases h; exact ⟨[], _, rfl, rfl⟩)⟩

theorem Tells.bind {α β} {x : Rep α} {f : α → Rep β} (hx : Tells x) (hf : ∀ a, x.1 = .ok a → Tells (f a)) : Tells (x.bind f) := by
  obtain ⟨r, l⟩ := x
  cases r with
  | ok a =>
    refine ⟨fun rc h => ?_⟩
    obtain ⟨l', r', h1, h2⟩ := (hf a rfl).told rc h
    refine ⟨l ++ l', r', ?_, h2⟩
    show l ++ (f a).2 = _
    rw [h1, List.append_assoc]
  | err e => exact ⟨fun rc h => hx.told rc (by cases h; rfl)⟩
  | _ => exact ⟨nofun⟩

theorem decodeOneR_tells (cs : List (RCoding A)) (slots : Struct A) (ti : TagInst) (p : List UInt8) (n : Nat) :
    Tells (decodeOneR cs slots ti p n) := by
  unfold decodeOneR
  cases findSlot ti (unreported cs) slots 0 0 with
  | tooMany => exact Tells.fail ..
  | full m =>
    simp only
    split
    · exact Tells.fail ..
    · exact ⟨nofun⟩
  | slot idx =>
    simp only
    split
    · rename_i c s _ _
      cases hd : c.c.dec with
      | none => exact Tells.fail ..
      | some d =>
        simp only
        refine Tells.bind ?_ fun v _ => Tells.bind ?_ fun s' _ => ?_
        · cases d p n with
          | err e => exact ⟨fun rc h => (by cases h; exact ⟨_, _, rfl, rfl⟩)⟩
          | _ => exact ⟨nofun⟩
        · refine ⟨fun rc hv => ?_⟩
          unfold storeVal at hv
          simp only at hv
          split at hv <;> cases hv
        · split
          · exact Tells.fail ..
          · exact ⟨nofun⟩
    · exact ⟨nofun⟩

theorem loopR_tells (cs : List (RCoding A)) : ∀ (fuel : Nat) (slots : Struct A) (g : Load),
    Tells (decodeUnorderedLoopR cs fuel slots g) := by
  intro fuel
  induction fuel with
  | zero => intro _ _; exact ⟨nofun⟩
  | succ fuel ih =>
    intro slots g
    simp only [decodeUnorderedLoopR]
    cases loadNext g with
    | ok g' =>
      simp only
      cases g'.val with
      | none => exact ⟨nofun⟩
      | some v => exact Tells.bind (decodeOneR_tells ..) fun _ _ => ih ..
    | err e g' => exact Tells.fail ..
    | _ => exact ⟨nofun⟩

theorem checkMandatoryR_tells (last : TagInst) : ∀ (cs : List (RCoding A)) (ss : Struct A) (idx : Nat),
    Tells (checkMandatoryR last cs ss idx) := by
  intro cs
  induction cs with
  | nil => intro ss idx; exact ⟨nofun⟩
  | cons c cs ih =>
    intro ss idx
    cases ss with
    | nil => exact ⟨nofun⟩
    | cons s ss =>
      simp only [checkMandatoryR]
      cases c.c.kind with
      | opt => exact ih ..
      | multi a b =>
        simp only
        split
        · exact Tells.fail ..
        · exact ih ..
      | mand =>
        simp only
        split
        · exact Tells.fail ..
        · split
          · exact Tells.fail ..
          · exact ih ..

theorem decodeUnorderedR_tells (cs : List (RCoding A)) (g : Load) : Tells (decodeUnorderedR cs g) :=
  Tells.bind (loopR_tells ..) fun _ _ => Tells.bind (checkMandatoryR_tells ..) fun _ _ => ⟨nofun⟩

end Verif
