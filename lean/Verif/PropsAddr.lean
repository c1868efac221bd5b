/-
Property theorems C111: reading IEs in formats of the user's, with addresses of 64 bits.
-/
import Verif.PropsFormat
import Verif.Addr

namespace Verif.Props
open Verif Spec

theorem nextTlValidAt_eq {base : Nat} {g : Load} (hb : base + g.srcLen < addrSpace)
    (hv : ∀ v, g.val = some v → v ≤ g.srcLen ∧ v + g.len < addrSpace) : nextTlValidAt base g = nextTlValid g := by
  rw [nextTlValid_eq]
  unfold nextTlValidAt
  have hs : (g.pos > g.srcLen ∧ (ieStartAt base g < base ∨ ieStartAt base g > base + g.srcLen)) ∨
      (g.pos ≤ g.srcLen ∧ ieStartAt base g = base + g.pos) := by
    unfold addrSpace at *
    unfold ieStartAt Load.pos
    cases h : g.val with
    | none => exact .inr ⟨by simp, rfl⟩
    | some v =>
      have hv := hv v h
      simp only [addrSpace]
      omega
  simp only
  rcases hs with ⟨h1, h2⟩ | ⟨h1, h2⟩
  · rw [if_pos h2, if_pos h1]
  · have n1 : ¬ (base + g.pos < base ∨ base + g.pos > base + g.srcLen) := by omega
    have n2 : ¬ g.pos > g.srcLen := by omega
    rw [h2, if_neg n1, if_neg n2, Nat.add_sub_cancel_left]
    by_cases h3 : g.srcLen - g.pos ≠ 0 ∧ g.srcLen - g.pos < g.cfg.tlMin
    · rw [if_pos h3, if_pos ⟨h3.1, .inl h3.2⟩]
    · rw [if_neg h3, if_neg (by rintro ⟨a, b | b⟩; exact h3 ⟨a, b⟩; omega)]

/-- The check of the end of an IE, with wrapping sums. -/
theorem inside_iff {base v len n : Nat} (hb : base + n < addrSpace) (hv : v ≤ n) (hl : len < addrSpace) :
    ¬ ((base + v + len) % addrSpace < base ∨ (base + v + len) % addrSpace > base + n) ↔ v + len ≤ n ∨ addrSpace ≤ v + len := by
  unfold addrSpace at *
  omega

theorem nextTlValidAt_ok {base : Nat} {g : Load} {o left : Nat} (hb : base + g.srcLen < addrSpace)
    (h : nextTlValidAt base g = .ok (o, left)) : o + left = g.srcLen ∧ (left = 0 ∨ g.cfg.tlMin ≤ left) := by
  unfold nextTlValidAt at h
  simp only at h
  generalize ieStartAt base g = s at h
  split at h
  · cases h
  · split at h
    · cases h
    · simp only [Except.ok.injEq, Prod.mk.injEq] at h
      obtain ⟨rfl, rfl⟩ := h
      omega

/-- C111, exactly: whatever the format, `osmo_gtlv_load_next()` accepts the IE that load_tl() reports if it ends inside the
window, or if offset of the value and length add up to 2^64 or more (the end of the IE is then in front of its value, and the
check does not notice).  Everything else is rejected with -EBADMSG. -/
theorem C111_accepted_exactly (base : Nat) (g : Load) (hb : base + g.srcLen < addrSpace) (o left : Nat) (r : LoadedTl)
    (hn : nextTlValidAt base g = .ok (o, left)) (hleft : left ≠ 0) (hr : g.cfg.loadTl (g.mem.drop o) left = .ok r)
    (hh : r.hdr ≤ left) (hl : r.len < 2 ^ 64) :
    loadNextAt base g =
      if o + r.hdr + r.len ≤ g.srcLen ∨ 2 ^ 64 ≤ o + r.hdr + r.len
      then .ok { g with ti := r.ti, len := r.len, val := some (o + r.hdr) }
      else .err .EBADMSG { g with ti := r.ti, len := r.len, val := some (o + r.hdr) } := by
  have hs := (nextTlValidAt_ok hb hn).1
  unfold loadNextAt
  rw [hn]
  simp only [if_neg hleft, hr]
  have := inside_iff (v := o + r.hdr) (len := r.len) hb (by omega) hl
  by_cases hc : o + r.hdr + r.len ≤ g.srcLen ∨ 2 ^ 64 ≤ o + r.hdr + r.len
  · rw [if_pos hc, if_neg (this.2 hc)]
  · rw [if_neg hc, if_pos (Classical.byContradiction fun h => hc (this.1 h))]

/-- C111: formats whose lengths are limited so that no sum wraps around: `osmo_gtlv_load_next()` does what it does with
unbounded addresses (C02 - C05, C110), in any state that earlier calls can leave. -/
theorem C111_same_partial (base : Nat) (g : Load) (most : Nat) (hp : PointsInside g.cfg most)
    (hb : base + g.srcLen < 2 ^ 64) (hm : g.srcLen + most < 2 ^ 64)
    (hv : ∀ v, g.val = some v → v ≤ g.srcLen ∧ g.len ≤ most) :
    loadNextAt base g = loadNext g ∧
    ∀ g', loadNext g = .ok g' ∨ (∃ e, loadNext g = .err e g') →
      g'.cfg = g.cfg ∧ g'.srcLen = g.srcLen ∧ g'.mem = g.mem ∧ ∀ v, g'.val = some v → v ≤ g.srcLen ∧ g'.len ≤ most := by
  have hv' : ∀ v, g.val = some v → v ≤ g.srcLen ∧ v + g.len < addrSpace := by
    intro v h
    have := hv v h
    unfold addrSpace
    omega
  have e := nextTlValidAt_eq hb hv'
  unfold loadNextAt loadNext
  rw [e]
  cases hn : nextTlValid g with
  | error er =>
    refine ⟨rfl, ?_⟩
    rintro g' (h | ⟨_, h⟩)
    · cases h
    · cases h; exact ⟨rfl, rfl, rfl, hv⟩
  | ok q =>
    obtain ⟨o, left⟩ := q
    simp only
    rw [hn] at e
    obtain ⟨h1, h2⟩ := nextTlValidAt_ok hb e
    by_cases hz : left = 0
    · rw [if_pos hz, if_pos hz]
      refine ⟨rfl, ?_⟩
      rintro g' (h | ⟨_, h⟩)
      · cases h; exact ⟨rfl, rfl, rfl, by simp⟩
      · cases h
    · rw [if_neg hz, if_neg hz]
      cases hr : g.cfg.loadTl (g.mem.drop o) left with
      | ok r =>
        obtain ⟨k1, k2⟩ := hp _ _ _ (by omega) (by omega) hr
        simp only
        have hi := inside_iff (v := o + r.hdr) (len := r.len) (base := base) (n := g.srcLen) hb (by omega)
          (by unfold addrSpace; omega)
        by_cases hc : o + r.hdr + r.len > g.srcLen
        · have : ¬ (o + r.hdr + r.len ≤ g.srcLen ∨ addrSpace ≤ o + r.hdr + r.len) := by unfold addrSpace; omega
          rw [if_pos hc, if_pos (Classical.byContradiction fun h => this (hi.1 h))]
          refine ⟨rfl, ?_⟩
          rintro g' (h | ⟨_, h⟩)
          · cases h
          · cases h
            refine ⟨rfl, rfl, rfl, ?_⟩
            intro v hv; cases hv; exact ⟨by omega, k2⟩
        · rw [if_neg hc, if_neg (hi.2 (.inl (by omega)))]
          refine ⟨rfl, ?_⟩
          rintro g' (h | ⟨_, h⟩)
          · cases h
            refine ⟨rfl, rfl, rfl, ?_⟩
            intro v hv; cases hv; exact ⟨by omega, k2⟩
          · cases h
      | err er =>
        refine ⟨rfl, ?_⟩
        rintro g' (h | ⟨_, h⟩)
        · cases h
        · cases h; exact ⟨rfl, rfl, rfl, hv⟩
      | abort => exact ⟨rfl, by rintro g' (h | ⟨_, h⟩) <;> cases h⟩
      | ub => exact ⟨rfl, by rintro g' (h | ⟨_, h⟩) <;> cases h⟩
      | diverge => exact ⟨rfl, by rintro g' (h | ⟨_, h⟩) <;> cases h⟩

/-- C111: the same for reading all IEs and for searching one. -/
theorem C111_loops_same_partial (base most : Nat) (fuel : Nat) : ∀ (g : Load), PointsInside g.cfg most →
    base + g.srcLen < 2 ^ 64 → g.srcLen + most < 2 ^ 64 → (∀ v, g.val = some v → v ≤ g.srcLen ∧ g.len ≤ most) →
    (∀ acc, loadAllAt base fuel g acc = loadAllLoop fuel g acc) ∧
    ∀ ti, nextByTagAt base ti fuel g = nextByTagLoop ti fuel g := by
  induction fuel with
  | zero => intro g _ _ _ _; exact ⟨fun _ => rfl, fun _ => rfl⟩
  | succ fuel ih =>
    intro g hp hb hm hv
    obtain ⟨e1, e2⟩ := C111_same_partial base g most hp hb hm hv
    simp only [loadAllAt, loadAllLoop, nextByTagAt, nextByTagLoop, e1]
    cases hl : loadNext g with
    | ok g' =>
      obtain ⟨k1, k2, _, k4⟩ := e2 g' (.inl hl)
      obtain ⟨i1, i2⟩ := ih g' (by rw [k1]; exact hp) (by rw [k2]; exact hb) (by rw [k2]; exact hm) (by rw [k2]; exact k4)
      cases hval : g'.val with
      | none => simp only [hval]; exact ⟨fun _ => trivial, fun _ => trivial⟩
      | some v =>
        simp only [hval, i1, i2]
        exact ⟨fun _ => trivial, fun _ => trivial⟩
    | _ => exact ⟨fun _ => rfl, fun _ => rfl⟩

/-- C111, for formats whose lengths are limited so that no sum wraps around, and whose load_tl() stays inside what it was given:
`osmo_gtlv_load_next()` returns, and an IE that it returns lies inside the window, behind its TL, which starts where the
previous IE ended. -/
theorem C111_in_bounds_partial (base : Nat) (g : Load) (most : Nat) (hp : PointsInside g.cfg most)
    (hi : StaysInside g.cfg) (hw : g.srcLen ≤ g.mem.length) (hb : base + g.srcLen < 2 ^ 64) (hm : g.srcLen + most < 2 ^ 64)
    (hv : ∀ v, g.val = some v → v ≤ g.srcLen ∧ g.len ≤ most) :
    (∃ e g', loadNextAt base g = .err e g') ∨
    (∃ g', loadNextAt base g = .ok g' ∧ g'.mem = g.mem ∧ g'.srcLen = g.srcLen ∧
      ∀ v, g'.val = some v → endOf g ≤ v ∧ v + g'.len ≤ g.srcLen) := by
  rw [(C111_same_partial base g most hp hb hm hv).1]
  unfold loadNext
  rw [nextTlValid_eq]
  have he : endOf g = g.pos := by unfold endOf Load.pos; cases g.val <;> rfl
  by_cases h1 : g.pos > g.srcLen
  · rw [if_pos h1]; exact .inl ⟨_, _, rfl⟩
  · rw [if_neg h1]
    by_cases h2 : g.srcLen - g.pos ≠ 0 ∧ g.srcLen - g.pos < g.cfg.tlMin
    · rw [if_pos h2]; exact .inl ⟨_, _, rfl⟩
    · rw [if_neg h2]
      simp only
      by_cases h3 : g.srcLen - g.pos = 0
      · rw [if_pos h3]; exact .inr ⟨_, rfl, rfl, rfl, by simp⟩
      · rw [if_neg h3]
        rcases hi (g.mem.drop g.pos) (g.srcLen - g.pos) (by omega) (by omega) (by simp; omega) with ⟨r, hr⟩ | ⟨e, hr⟩
        · rw [hr]
          simp only
          by_cases h4 : g.pos + r.hdr + r.len > g.srcLen
          · rw [if_pos h4]; exact .inl ⟨_, _, rfl⟩
          · rw [if_neg h4]
            refine .inr ⟨_, rfl, rfl, rfl, ?_⟩
            intro v hv
            cases hv
            exact ⟨by rw [he]; omega, by simp only; omega⟩
        · rw [hr]; exact .inl ⟨_, _, rfl⟩

theorem loadAllAt_ends {base most : Nat} (fuel : Nat) : ∀ (g : Load) (acc), PointsInside g.cfg most → StaysInside g.cfg →
    TakesOctets g.cfg → g.srcLen ≤ g.mem.length → base + g.srcLen < 2 ^ 64 → g.srcLen + most < 2 ^ 64 →
    (∀ v, g.val = some v → v ≤ g.srcLen ∧ g.len ≤ most) → g.srcLen - g.pos < fuel →
    (∃ l, loadAllAt base fuel g acc = .ok l) ∨ ∃ e, loadAllAt base fuel g acc = .err e := by
  induction fuel with
  | zero => intro g acc _ _ _ _ _ _ _ h; omega
  | succ fuel ih =>
    intro g acc hp hi ht hw hb hm hv hf
    obtain ⟨e1, e2⟩ := C111_same_partial base g most hp hb hm hv
    rcases C111_in_bounds_partial base g most hp hi hw hb hm hv with ⟨e, g', h⟩ | ⟨g', h, h1, h2, h3⟩
    · exact .inr ⟨e, by simp only [loadAllAt, h]⟩
    · cases hval : g'.val with
      | none => exact .inl ⟨_, by simp only [loadAllAt, h, hval]; rfl⟩
      | some v =>
        obtain ⟨k1, k2, k3, k4⟩ := e2 g' (.inl (by rw [← e1]; exact h))
        have hprog : g.pos < g'.pos := by
          rw [e1] at h
          unfold loadNext at h
          rw [nextTlValid_eq] at h
          split at h
          · cases h
          · rename_i o left hn
            split at hn
            · cases hn
            · split at hn
              · cases hn
              · cases hn
                split at h
                · cases h; cases hval
                · split at h <;> try cases h
                  rename_i r hr
                  have := ht _ _ _ hr
                  split at h
                  · cases h
                  · cases h
                    simp only [Load.pos] at *
                    omega
        have hin := h3 v hval
        have hp' : g'.pos = v + g'.len := by unfold Load.pos; rw [hval]
        have := ih g' ((g'.ti, g'.valueBytes) :: acc) (by rw [k1]; exact hp) (by rw [k1]; exact hi) (by rw [k1]; exact ht)
          (by rw [k2, k3]; exact hw) (by rw [k2]; exact hb) (by rw [k2]; exact hm) (by rw [k2]; exact k4) (by rw [k2]; omega)
        simpa only [loadAllAt, h, hval] using this

/-- C111, for the same formats, if no TL is empty: reading a window of `n` octets ends after at most `n + 1` calls. -/
theorem C111_ends_partial (base : Nat) (c : Cfg) (mem : List UInt8) (n most : Nat) (hp : PointsInside c most)
    (hi : StaysInside c) (ht : TakesOctets c) (hw : n ≤ mem.length) (hb : base + n < 2 ^ 64) (hm : n + most < 2 ^ 64) :
    (∃ l, loadAllAt base (n + 1) (fresh c mem n) [] = .ok l) ∨ ∃ e, loadAllAt base (n + 1) (fresh c mem n) [] = .err e :=
  loadAllAt_ends (n + 1) (fresh c mem n) [] hp hi ht hw hb hm (by simp [fresh]) (by simp [fresh, Load.pos])

/-! ### The formats of the library -/

theorem lib_points (c : Cfg) (hc : LibCfg c) : PointsInside c 65535 ∧ StaysInside c ∧ TakesOctets c := by
  have key : ∀ {c : Cfg} {hdr dom}, c.Lawful hdr dom → (∀ ti len, dom ti len → len ≤ 65535) →
      (∀ p n r, c.loadTl p n = .ok r → c.tlMin ≤ p.length) → PointsInside c 65535 ∧ StaysInside c ∧ TakesOctets c := by
    intro c hdr dom h hd hlen
    refine ⟨?_, ?_, ?_⟩
    · intro p n r hn _ hr
      obtain ⟨tl, a, b, d, _⟩ := h.load p n (hlen p n r hr)
      rw [hr] at a; cases a
      exact ⟨by omega, hd _ _ d⟩
    · intro p n h1 _ h2
      obtain ⟨tl, a, _⟩ := h.load p n (by omega)
      exact .inl ⟨tl, a⟩
    · intro p n r hr
      obtain ⟨tl, a, b, d, _⟩ := h.load p n (hlen p n r hr)
      rw [hr] at a; cases a
      have := h.tlMin_pos
      omega
  rcases hc with rfl | rfl
  · refine key t8l8v_lawful (fun _ _ h => by have := h.2.2; omega) ?_
    intro p n r hr
    match p with
    | [] => cases hr
    | [x] => cases hr
    | x :: y :: p => simp [t8l8v]
  · refine key t16l16v_lawful (fun _ _ h => by have := h.2.2; omega) ?_
    intro p n r hr
    simp only [t16l16v, rdN] at hr ⊢
    split at hr
    · simp only [Res.bind_ok] at hr
      split at hr
      · assumption
      · cases hr
    · cases hr

/-- C111: with the formats of the library, and a window that is not in the first 64 KiB of the address space, the addresses can
be taken as unbounded: `osmo_gtlv_load_next()` does what C02 - C05 say. -/
theorem C111_library_formats (base : Nat) (g : Load) (hc : LibCfg g.cfg) (h0 : 65536 ≤ base)
    (hb : base + g.srcLen < 2 ^ 64) (hv : ∀ v, g.val = some v → v ≤ g.srcLen ∧ g.len ≤ 65535) :
    loadNextAt base g = loadNext g ∧
    ∀ g', loadNext g = .ok g' ∨ (∃ e, loadNext g = .err e g') → ∀ v, g'.val = some v → v ≤ g'.srcLen ∧ g'.len ≤ 65535 := by
  obtain ⟨h1, h2⟩ := C111_same_partial base g 65535 (lib_points g.cfg hc).1 hb (by omega) hv
  refine ⟨h1, ?_⟩
  intro g' hg
  obtain ⟨_, k2, _, k4⟩ := h2 g' hg
  rw [k2]
  exact k4

/-! ### Lengths that wrap around -/

/-- C111 does not hold for all formats: in the format of the library's own tliv_test.c, where L counts the instance, an IE with
L = 0 has the length 2^64 - 1.  In every window that begins with such an IE, `osmo_gtlv_load_next()` accepts it: the length is
larger than any window, and if the window is only this TL, not even the first octet of the value can be read. -/
theorem C111_wrapped_length (base : Nat) (i : UInt8) (rest : List UInt8) (hb : base + (3 + rest.length) < 2 ^ 64) :
    loadNextAt base (fresh Recorded.tlivIn ([1, 0, i] ++ rest) (3 + rest.length)) =
      .ok { fresh Recorded.tlivIn ([1, 0, i] ++ rest) (3 + rest.length) with
        ti := { tag := 1, inst := some i.toNat }, len := 2 ^ 64 - 1, val := some 3 } := by
  have hn : nextTlValidAt base (fresh Recorded.tlivIn ([1, 0, i] ++ rest) (3 + rest.length)) = .ok (0, 3 + rest.length) := by
    rw [nextTlValidAt_eq hb (by simp [fresh]), nextTlValid_eq]
    have n1 : ¬ (3 + rest.length ≠ 0 ∧ 3 + rest.length < 2) := by omega
    simp [fresh, Load.pos, Recorded.tlivIn]
    omega
  have hr : (fresh Recorded.tlivIn ([1, 0, i] ++ rest) (3 + rest.length)).cfg.loadTl
      ((fresh Recorded.tlivIn ([1, 0, i] ++ rest) (3 + rest.length)).mem.drop 0) (3 + rest.length) =
      .ok { ti := { tag := 1, inst := some i.toNat }, len := 2 ^ 64 - 1, hdr := 3 } := by
    have hl : ¬ 3 + rest.length < 3 := by omega
    simp [fresh, Recorded.tlivIn, Recorded.tlivInLoad, rd, hl]
  have := C111_accepted_exactly base _ hb _ _ _ hn (by omega) hr (by simp) (by simp)
  rw [this]
  simp [fresh]

-- the window is the TL alone: the decoder is given 2^64 - 1 octets, of which none can be read
example : (loadNextAt 0x1000 (fresh Recorded.tlivIn [1, 0, 5] 3)).toRes.bind (fun g => .ok (g.val, g.len, g.valueMem)) =
    .ok (some 3, 2 ^ 64 - 1, []) := rfl

/-- A format with tags of one octet and lengths of eight octets, as gtlv.h:48-50 allows. -/
def t8l64v : Cfg where
  tlMin := 9
  loadTl p _ := do
    let t ← rd p 0
    let l ← rdN p 1 8
    Res.ok { ti := { tag := t.toNat }, len := loadBE l, hdr := 9 }
  storeTl avail ti len :=
    if ti.tag > 255 then .error .EINVAL
    else if len ≥ 2 ^ 64 then .error .EMSGSIZE
    else if avail < 9 then .error .ENOSPC
    else .ok (storeBE 1 ti.tag ++ storeBE 8 len)

/-- C111 does not hold for all formats: an IE with the length 2^64 - 9, in a format with L of eight octets, ends where it
starts.  Reading any window that begins with such an IE never ends. -/
theorem C111_endless (base : Nat) (rest : List UInt8) (hb : base + (9 + rest.length) < 2 ^ 64) (fuel : Nat) :
    loadAllAt base fuel (fresh t8l64v ([1, 255, 255, 255, 255, 255, 255, 255, 247] ++ rest) (9 + rest.length)) [] = .diverge := by
  have key : ∀ (fuel : Nat) (g : Load) (acc), g.cfg = t8l64v →
      g.mem = [1, 255, 255, 255, 255, 255, 255, 255, 247] ++ rest → g.srcLen = 9 + rest.length →
      (g.val = none ∨ g.val = some 9 ∧ g.len = 2 ^ 64 - 9) → loadAllAt base fuel g acc = .diverge := by
    intro fuel
    induction fuel with
    | zero => intros; rfl
    | succ fuel ih =>
      intro g acc h1 h2 h3 h4
      have hn : nextTlValidAt base g = .ok (0, 9 + rest.length) := by
        have hs : ieStartAt base g = base := by
          unfold ieStartAt
          rcases h4 with h4 | ⟨h4, h5⟩
          · rw [h4]
          · rw [h4, h5]; simp only [addrSpace]; omega
        unfold nextTlValidAt
        simp only [hs, h3, h1, Nat.sub_self, Nat.sub_zero]
        rw [if_neg (by omega), if_neg (by simp [t8l64v])]
      have hr : g.cfg.loadTl (g.mem.drop 0) (9 + rest.length) = .ok { ti := { tag := 1 }, len := 2 ^ 64 - 9, hdr := 9 } := by
        rw [h1, h2]
        simp [t8l64v, rdN, loadBE]
      have := C111_accepted_exactly base g (by rw [h3]; exact hb) _ _ _ hn (by omega) hr (by simp) (by simp)
      rw [if_pos (.inr (by simp))] at this
      simp only [loadAllAt, this]
      exact ih _ _ h1 h2 h3 (.inr ⟨rfl, rfl⟩)
  exact key fuel _ _ rfl rfl rfl (.inl rfl)

-- what the hypotheses of the C111 theorems need: the TLIV format of gtlv_test.c
example : PointsInside Recorded.tliv 255 ∧ TakesOctets Recorded.tliv ∧ StaysInside Recorded.tliv := by
  have hl : ∀ p n r, Recorded.tliv.loadTl p n = .ok r → (r.hdr = 2 ∨ r.hdr = 3 ∧ 3 ≤ n) ∧ r.len ≤ 255 := by
    intro p n r hr
    match p with
    | [] => cases hr
    | [x] => cases hr
    | x :: y :: p =>
      simp only [Recorded.tliv, Recorded.tlivLoad, rd_zero_cons, rd_succ_cons, Res.bind_ok] at hr
      have hy := y.toNat_lt
      split at hr
      · split at hr
        · cases hr
        · cases p with
          | nil => cases hr
          | cons z p =>
            simp only [rd_zero_cons, Res.bind_ok] at hr
            cases hr
            exact ⟨.inr ⟨rfl, by omega⟩, by simp only; omega⟩
      · cases hr
        exact ⟨.inl rfl, by simp only; omega⟩
  refine ⟨?_, ?_, ?_⟩
  · intro p n r h1 _ hr
    have := hl p n r hr
    have h1' : 2 ≤ n := h1
    omega
  · intro p n r hr
    have := hl p n r hr
    omega
  · intro p n h1 _ h2
    have h1' : 2 ≤ n := h1
    match p with
    | [] => simp at h2; omega
    | [x] => simp at h2; omega
    | x :: y :: p =>
      simp only [Recorded.tliv, Recorded.tlivLoad, rd_zero_cons, rd_succ_cons, Res.bind_ok]
      split
      · split
        · exact .inr ⟨_, rfl⟩
        · cases p with
          | nil => simp at h2; omega
          | cons z p => exact .inl ⟨_, rfl⟩
      · exact .inl ⟨_, rfl⟩

end Verif.Props
