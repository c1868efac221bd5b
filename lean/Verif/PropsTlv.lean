/-
Property theorems C01-C07: the TLV layer (src/libosmo-gtlv/gtlv.c).
-/
import Verif.GtlvLemmas
import Verif.SpecTlv

namespace Verif.Props
open Verif

/-- An IE of the specification as the API names it: a tag without instance, and the value. -/
def asIe (x : Spec.Ie) : TagInst × List UInt8 := ({ tag := x.1 }, x.2)

/-- A loader as set up by a user: `.cfg`, `.src = { .data, .len }`, everything else zero. -/
def fresh (cfg : Cfg) (mem : List UInt8) (len : Nat) : Load := { cfg := cfg, mem := mem, srcLen := len }

/-! Bridge between the specification's octets and the lemmas' header functions. -/

theorem octets16_eq (l : List Spec.Ie) (h : ∀ x ∈ l, Spec.Fits16 x) :
    tlvBytes hdr16 (l.map asIe) = Spec.octets16 l ∧ tlvsDom dom16 (l.map asIe) := by
  constructor
  · clear h
    induction l with
    | nil => rfl
    | cons x l ih =>
      obtain ⟨t, v⟩ := x
      simp only [Spec.octets16, List.flatMap_cons, List.map_cons] at ih ⊢
      rw [← ih]
      simp only [asIe, tlvBytes, hdr16, storeBE, Spec.ie16, Spec.octet]
      have e : ∀ n : Nat, UInt8.ofNat (n % 256) = UInt8.ofNat n := by
        intro n; apply UInt8.toNat_inj.mp; simp
      simp [e]
  · intro y hy
    obtain ⟨x, hx, rfl⟩ := List.mem_map.mp hy
    have := h x hx
    exact ⟨rfl, by simp only [asIe]; have := this.1; omega, by simp only [asIe]; have := this.2; omega⟩

theorem octets8_eq (l : List Spec.Ie) (h : ∀ x ∈ l, Spec.Fits8 x) :
    tlvBytes hdr8 (l.map asIe) = Spec.octets8 l ∧ tlvsDom dom8 (l.map asIe) := by
  constructor
  · clear h
    induction l with
    | nil => rfl
    | cons x l ih =>
      obtain ⟨t, v⟩ := x
      simp only [Spec.octets8, List.flatMap_cons, List.map_cons] at ih ⊢
      rw [← ih]
      simp [asIe, tlvBytes, hdr8, storeBE, Spec.ie8, Spec.octet]
  · intro y hy
    obtain ⟨x, hx, rfl⟩ := List.mem_map.mp hy
    have := h x hx
    exact ⟨rfl, by simp only [asIe]; have := this.1; omega, by simp only [asIe]; have := this.2; omega⟩

theorem fresh_at (cfg : Cfg) (bs rest : List UInt8) : (fresh cfg (bs ++ rest) bs.length).At cfg bs where
  cfg := rfl
  window := by simp [fresh]
  pos_le := by simp [fresh, Load.pos]
  rest := by simp [fresh, Load.rest, Load.pos]

/-! ## C01 -/

/-- C01, `osmo_t16l16v_cfg`: any sequence of IEs that fit is written as their concatenation, and
reading those octets back (whatever follows in memory) yields the same sequence and then the end. -/
theorem C01_put_then_load_t16l16v (ies : List Spec.Ie) (hfit : ∀ x ∈ ies, Spec.Fits16 x)
    (b : Msgb) (hroom : b.data.length + (Spec.octets16 ies).length ≤ b.cap) :
    (∃ p', putTlvs t16l16v {} b (ies.map asIe) =
        .ok (p', { b with data := b.data ++ Spec.octets16 ies })) ∧
    ∀ rest fuel, ies.length < fuel →
      loadAllLoop fuel (fresh t16l16v (Spec.octets16 ies ++ rest) (Spec.octets16 ies).length) [] =
        .ok (ies.map asIe) := by
  obtain ⟨e, d⟩ := octets16_eq ies hfit
  constructor
  · rw [← e] at hroom ⊢
    exact putTlvs_eq t16l16v_lawful _ _ _ d (fun x hx => dom16_zero (d x hx)) hroom
  · intro rest fuel hf
    have := loadAllLoop_tlvs t16l16v_lawful (ies.map asIe) d
      (fresh t16l16v (Spec.octets16 ies ++ rest) (Spec.octets16 ies).length)
      (by rw [e]; exact fresh_at ..) [] fuel (by simpa)
    simpa using this

/-- C01, `osmo_t8l8v_cfg`. -/
theorem C01_put_then_load_t8l8v (ies : List Spec.Ie) (hfit : ∀ x ∈ ies, Spec.Fits8 x)
    (b : Msgb) (hroom : b.data.length + (Spec.octets8 ies).length ≤ b.cap) :
    (∃ p', putTlvs t8l8v {} b (ies.map asIe) =
        .ok (p', { b with data := b.data ++ Spec.octets8 ies })) ∧
    ∀ rest fuel, ies.length < fuel →
      loadAllLoop fuel (fresh t8l8v (Spec.octets8 ies ++ rest) (Spec.octets8 ies).length) [] =
        .ok (ies.map asIe) := by
  obtain ⟨e, d⟩ := octets8_eq ies hfit
  constructor
  · rw [← e] at hroom ⊢
    exact putTlvs_eq t8l8v_lawful _ _ _ d (fun x hx => dom8_zero (d x hx)) hroom
  · intro rest fuel hf
    have := loadAllLoop_tlvs t8l8v_lawful (ies.map asIe) d
      (fresh t8l8v (Spec.octets8 ies ++ rest) (Spec.octets8 ies).length)
      (by rw [e]; exact fresh_at ..) [] fuel (by simpa)
    simpa using this

-- The hypotheses of C01 are met by e.g. three IEs, one of them empty, in a used 64 octet buffer.
example : (∀ x ∈ ([(60, [0, 1, 2, 3, 4]), (19, [1]), (300, [])] : List Spec.Ie), Spec.Fits16 x) ∧
    ([9, 9] : List UInt8).length + (Spec.octets16 [(60, [0, 1, 2, 3, 4]), (19, [1]), (300, [])]).length
      ≤ 64 := by
  constructor
  · intro x hx; simp at hx; rcases hx with rfl | rfl | rfl <;> simp [Spec.Fits16]
  · decide

/-! ## C02 -/

/-- The configurations provided by the library. -/
def LibCfg (c : Cfg) : Prop := c = t8l8v ∨ c = t16l16v

/-- End offset of the IE the loader points at (0 before the first IE). -/
def endOf (g : Load) : Nat :=
  match g.val with
  | none => 0
  | some v => v + g.len

/-- C02: in any state of a loader whose window is readable memory - also after earlier errors -
`osmo_gtlv_load_next()` returns without undefined behaviour, and an IE it returns lies inside the
window, behind its TL, which starts where the previous IE ended.  (With `g.mem.length = g.srcLen`
this says that no octet outside the window is read.) -/
theorem C02_load_next_in_bounds (g : Load) (hc : LibCfg g.cfg) (hw : g.srcLen ≤ g.mem.length) :
    (∃ e g', loadNext g = .err e g') ∨
    (∃ g', loadNext g = .ok g' ∧ g'.mem = g.mem ∧ g'.srcLen = g.srcLen ∧
      ∀ v, g'.val = some v → v = endOf g + g.cfg.tlMin ∧ v + g'.len ≤ g.srcLen) := by
  have key : ∀ {hdr dom}, g.cfg.Lawful hdr dom → _ := fun h => loadNext_cases h g rfl hw
  have fin : (∃ e g', loadNext g = .err e g') ∨
    (∃ g', loadNext g = .ok g' ∧ g'.mem = g.mem ∧ g'.srcLen = g.srcLen ∧
      ∀ v, g'.val = some v → v = g.pos + g.cfg.tlMin ∧ v + g'.len ≤ g.srcLen) := by
    rcases hc with hc | hc
    · rcases key (by rw [hc]; exact t8l8v_lawful) with ⟨_, h⟩ | ⟨_, h⟩ | ⟨_, _, h⟩ | ⟨_, _, ti, len, _, _, ⟨_, h⟩ | ⟨hl, h⟩⟩
      · exact .inl ⟨_, _, h⟩
      · exact .inr ⟨_, h, rfl, rfl, by simp⟩
      · exact .inl ⟨_, _, h⟩
      · exact .inl ⟨_, _, h⟩
      · refine .inr ⟨_, h, rfl, rfl, ?_⟩
        intro v hv; simp only [Option.some.injEq] at hv; subst hv; exact ⟨rfl, hl⟩
    · rcases key (by rw [hc]; exact t16l16v_lawful) with ⟨_, h⟩ | ⟨_, h⟩ | ⟨_, _, h⟩ | ⟨_, _, ti, len, _, _, ⟨_, h⟩ | ⟨hl, h⟩⟩
      · exact .inl ⟨_, _, h⟩
      · exact .inr ⟨_, h, rfl, rfl, by simp⟩
      · exact .inl ⟨_, _, h⟩
      · exact .inl ⟨_, _, h⟩
      · refine .inr ⟨_, h, rfl, rfl, ?_⟩
        intro v hv; simp only [Option.some.injEq] at hv; subst hv; exact ⟨rfl, hl⟩
  exact fin

/-- The window hypothesis is needed and is what makes the theorem meaningful: with a window that
claims more octets than the memory holds, loading is undefined behaviour. -/
example : loadNext (fresh t16l16v [0, 1, 0] 100) = .ub := rfl

/-! ## C03 -/

/-- C03, `osmo_t16l16v_cfg`: reading a window of `len` octets takes at most `len / 4 + 1` calls; it
yields the unique sequence of IEs whose concatenation is the window, and fails exactly when there
is no such sequence. -/
theorem C03_iteration_partitions_t16l16v (mem : List UInt8) (len fuel : Nat) (hw : len ≤ mem.length)
    (hf : len / 4 < fuel) :
    (∃ ies : List Spec.Ie, (∀ x ∈ ies, Spec.Fits16 x) ∧ mem.take len = Spec.octets16 ies ∧
      loadAllLoop fuel (fresh t16l16v mem len) [] = .ok (ies.map asIe)) ∨
    (∃ e, loadAllLoop fuel (fresh t16l16v mem len) [] = .err e ∧
      ¬ ∃ ies : List Spec.Ie, (∀ x ∈ ies, Spec.Fits16 x) ∧ mem.take len = Spec.octets16 ies) := by
  rcases loadAllLoop_total t16l16v_lawful len (fresh t16l16v mem len) [] fuel rfl hw
    (by simp [fresh, Load.pos]) (by simp [fresh]) hf with ⟨l, h1, h2, h3⟩ | ⟨e, h1, h2⟩
  · left
    have hl : l = (l.map fun x => (x.1.tag, x.2)).map asIe := by
      rw [List.map_map]
      conv => lhs; rw [← List.map_id l]
      apply List.map_congr_left
      rintro ⟨⟨t, i⟩, v⟩ hx
      have : i = none := (h1 _ hx).1
      subst this; rfl
    have hfit : ∀ x ∈ (l.map fun x => (x.1.tag, x.2)), Spec.Fits16 x := by
      intro x hx
      obtain ⟨y, hy, rfl⟩ := List.mem_map.mp hx
      obtain ⟨_, h4, h5⟩ := h1 y hy
      exact ⟨by simp only; omega, by simp only; omega⟩
    refine ⟨_, hfit, ?_, ?_⟩
    · rw [← (octets16_eq _ hfit).1, ← hl, ← h2]; simp [fresh, Load.rest, Load.pos]
    · rw [← hl]; simpa using h3
  · right
    refine ⟨e, h1, ?_⟩
    rintro ⟨ies, hfit, he⟩
    obtain ⟨e1, e2⟩ := octets16_eq ies hfit
    apply h2 _ e2
    rw [e1, ← he]; simp [fresh, Load.rest, Load.pos]

/-- C03, `osmo_t8l8v_cfg`. -/
theorem C03_iteration_partitions_t8l8v (mem : List UInt8) (len fuel : Nat) (hw : len ≤ mem.length)
    (hf : len / 2 < fuel) :
    (∃ ies : List Spec.Ie, (∀ x ∈ ies, Spec.Fits8 x) ∧ mem.take len = Spec.octets8 ies ∧
      loadAllLoop fuel (fresh t8l8v mem len) [] = .ok (ies.map asIe)) ∨
    (∃ e, loadAllLoop fuel (fresh t8l8v mem len) [] = .err e ∧
      ¬ ∃ ies : List Spec.Ie, (∀ x ∈ ies, Spec.Fits8 x) ∧ mem.take len = Spec.octets8 ies) := by
  rcases loadAllLoop_total t8l8v_lawful len (fresh t8l8v mem len) [] fuel rfl hw
    (by simp [fresh, Load.pos]) (by simp [fresh]) hf with ⟨l, h1, h2, h3⟩ | ⟨e, h1, h2⟩
  · left
    have hl : l = (l.map fun x => (x.1.tag, x.2)).map asIe := by
      rw [List.map_map]
      conv => lhs; rw [← List.map_id l]
      apply List.map_congr_left
      rintro ⟨⟨t, i⟩, v⟩ hx
      have : i = none := (h1 _ hx).1
      subst this; rfl
    have hfit : ∀ x ∈ (l.map fun x => (x.1.tag, x.2)), Spec.Fits8 x := by
      intro x hx
      obtain ⟨y, hy, rfl⟩ := List.mem_map.mp hx
      obtain ⟨_, h4, h5⟩ := h1 y hy
      exact ⟨by simp only; omega, by simp only; omega⟩
    refine ⟨_, hfit, ?_, ?_⟩
    · rw [← (octets8_eq _ hfit).1, ← hl, ← h2]; simp [fresh, Load.rest, Load.pos]
    · rw [← hl]; simpa using h3
  · right
    refine ⟨e, h1, ?_⟩
    rintro ⟨ies, hfit, he⟩
    obtain ⟨e1, e2⟩ := octets8_eq ies hfit
    apply h2 _ e2
    rw [e1, ← he]; simp [fresh, Load.rest, Load.pos]

/-- The sequence of IEs is determined by the octets. -/
theorem C03_partition_unique (a b : List Spec.Ie) (ha : ∀ x ∈ a, Spec.Fits16 x)
    (hb : ∀ x ∈ b, Spec.Fits16 x) (h : Spec.octets16 a = Spec.octets16 b) : a = b := by
  have h1 := (C01_put_then_load_t16l16v a ha ⟨(Spec.octets16 a).length, []⟩ (by simp)).2 []
    (a.length + b.length + 1) (by omega)
  have h2 := (C01_put_then_load_t16l16v b hb ⟨(Spec.octets16 b).length, []⟩ (by simp)).2 []
    (a.length + b.length + 1) (by omega)
  rw [h, h2] at h1
  have inj : Function.Injective asIe := by
    rintro ⟨t, v⟩ ⟨t', v'⟩ h; simp [asIe] at h; simp [h]
  simp only [Res.ok.injEq] at h1
  exact (List.map_inj_right (fun x y h => inj h)).mp h1.symm

-- Both alternatives of C03 occur: a well-formed window, and the same window with one octet cut off.
example : loadAllLoop 3 (fresh t16l16v [0, 19, 0, 1, 1, 7, 7] 5) [] = .ok [({ tag := 19 }, [1])] := rfl
example : loadAllLoop 3 (fresh t16l16v [0, 19, 0, 1, 1, 7, 7] 4) [] = .err .EBADMSG := rfl

/-! ## C04 -/

/-- C04: whenever `osmo_gtlv_load_next()` returns an IE, `osmo_gtlv_load_peek_tag()` in the same
state returns its tag, for any configuration (also user defined ones).  That peek leaves the state
alone is its type in the model: it works on a copy (gtlv.c:171). -/
theorem C04_peek_agrees_with_load (g g' : Load) (v : Nat) (h : loadNext g = .ok g')
    (hv : g'.val = some v) : peekTag g = .ok g'.ti := by
  unfold loadNext at h
  unfold peekTag
  cases hn : nextTlValid g with
  | error e => rw [hn] at h; simp at h
  | ok q =>
    obtain ⟨s, l⟩ := q
    rw [hn] at h
    simp only at h ⊢
    split at h
    · simp only [Out.ok.injEq] at h; subst h; simp at hv
    · rename_i hl
      rw [if_neg hl]
      split at h <;> try contradiction
      rename_i tl htl
      split at h
      · contradiction
      · simp only [Out.ok.injEq] at h; subst h; rfl

/-- C04: peek reports "no more IEs" exactly when the next load reports the end of the buffer. -/
theorem C04_peek_enoent_iff_end (g : Load) :
    peekTag g = .err .ENOENT ↔ ∃ g', loadNext g = .ok g' ∧ g'.val = none := by
  unfold peekTag loadNext
  cases hn : nextTlValid g with
  | error e =>
    simp only [Res.err.injEq, reduceCtorEq, false_and, exists_false, iff_false]
    rintro rfl
    rw [nextTlValid_eq] at hn
    split at hn
    · simp at hn
    · split at hn <;> simp at hn
  | ok q =>
    obtain ⟨s, l⟩ := q
    simp only
    by_cases hl : l = 0
    · simp [hl]
    · rw [if_neg hl, if_neg hl]
      cases g.cfg.loadTl (g.mem.drop s) l <;> simp
      rename_i tl
      intro x
      split
      · simp
      · simp only [Out.ok.injEq]; rintro rfl; simp

/-- C04: on a readable window, peek always returns. -/
theorem C04_peek_returns (g : Load) (hc : LibCfg g.cfg) (hw : g.srcLen ≤ g.mem.length) :
    (peekTag g).Returns := by
  have key : ∀ {hdr dom}, g.cfg.Lawful hdr dom → (peekTag g).Returns := by
    intro hdr dom h
    unfold peekTag
    rw [nextTlValid_eq]
    by_cases h1 : g.pos > g.srcLen
    · simp [h1, Res.Returns]
    · rw [if_neg h1]
      by_cases h2 : g.srcLen - g.pos ≠ 0 ∧ g.srcLen - g.pos < g.cfg.tlMin
      · simp [h2, Res.Returns]
      · rw [if_neg h2]
        simp only
        split
        · simp [Res.Returns]
        · obtain ⟨tl, l1, _⟩ := h.load (g.mem.drop g.pos) (g.srcLen - g.pos) (by simp; omega)
          rw [l1]; simp [Res.Returns]
  rcases hc with hc | hc
  · exact key (by rw [hc]; exact t8l8v_lawful)
  · exact key (by rw [hc]; exact t16l16v_lawful)

example : peekTag (fresh t16l16v [0, 19, 0, 1, 1] 5) = .ok { tag := 19 } ∧
    peekTag (fresh t16l16v [] 0) = .err .ENOENT := ⟨rfl, rfl⟩
/-- Peek does not look at the value: it succeeds where the load fails (IE longer than the rest). -/
example : peekTag (fresh t16l16v [0, 19, 0, 9, 1] 5) = .ok { tag := 19 } ∧
    (loadNext (fresh t16l16v [0, 19, 0, 9, 1] 5)).toRes matches .err .EBADMSG := ⟨rfl, rfl⟩

/-! ## C05 -/

/-- Skipping: `w` is reached from `g` by successive successful loads, each of them returning an IE
with a tag other than `ti`. -/
inductive Skips (ti : TagInst) : Load → Load → Prop where
  | here (g) : Skips ti g g
  | step {g g' w} : loadNext g = .ok g' → g'.val ≠ none → g'.ti ≠ ti → Skips ti g' w → Skips ti g w

theorem nextByTagLoop_spec {c : Cfg} {hdr dom} (h : c.Lawful hdr dom) (ti : TagInst) (n : Nat) :
    ∀ (g : Load) (fuel : Nat), g.cfg = c → g.srcLen ≤ g.mem.length → g.srcLen - g.pos ≤ n →
      n + 1 < fuel →
      ∃ w, Skips ti g w ∧
        ((∃ g' v, loadNext w = .ok g' ∧ g'.val = some v ∧ g'.ti = ti ∧ nextByTagLoop ti fuel g = .ok g') ∨
         (∃ g', loadNext w = .ok g' ∧ g'.val = none ∧ nextByTagLoop ti fuel g = .err .ENOENT) ∨
         (∃ e g', loadNext w = .err e g' ∧ nextByTagLoop ti fuel g = .err e)) := by
  induction n using Nat.strongRecOn with
  | _ n ih =>
  intro g fuel hc hw hn hf
  have hpos := h.tlMin_pos
  cases fuel with
  | zero => omega
  | succ fuel =>
  rcases loadNext_cases h g hc hw with ⟨_, h2⟩ | ⟨_, h2⟩ | ⟨_, _, h2⟩ |
    ⟨h1, h2, t, len, hd, ht, ⟨_, h3⟩ | ⟨h4, h5⟩⟩
  · exact ⟨g, .here g, .inr (.inr ⟨_, _, h2, by simp [nextByTagLoop, h2]⟩)⟩
  · exact ⟨g, .here g, .inr (.inl ⟨_, h2, rfl, by simp [nextByTagLoop, h2]⟩)⟩
  · exact ⟨g, .here g, .inr (.inr ⟨_, _, h2, by simp [nextByTagLoop, h2]⟩)⟩
  · exact ⟨g, .here g, .inr (.inr ⟨_, _, h3, by simp [nextByTagLoop, h3]⟩)⟩
  · by_cases hti : t = ti
    · refine ⟨g, .here g, .inl ⟨_, _, h5, rfl, hti, ?_⟩⟩
      simp only [nextByTagLoop, h5]
      rw [if_pos (TagInst.cmp_eq_zero.mpr hti)]
    · obtain ⟨w, w1, w2⟩ := ih (n - c.tlMin) (by omega)
        { g with ti := t, len := len, val := some (g.pos + c.tlMin) } fuel hc hw
        (by show g.srcLen - (g.pos + c.tlMin + len) ≤ _; omega) (by omega)
      refine ⟨w, .step h5 (by simp) hti w1, ?_⟩
      have hloop : nextByTagLoop ti (fuel + 1) g =
          nextByTagLoop ti fuel { g with ti := t, len := len, val := some (g.pos + c.tlMin) } := by
        simp only [nextByTagLoop, h5]
        rw [if_neg (fun hh => hti (TagInst.cmp_eq_zero.mp hh))]
      rw [hloop]; exact w2

/-- C05: `osmo_gtlv_load_next_by_tag_inst()` skips IEs of other tags and then does one of three
things, decided by the next load: it stops at the first IE with the wanted tag; or, at the end of
the buffer, returns -ENOENT; or returns the parse error.  In the last two cases the loader is as
before the call. -/
theorem C05_next_by_tag_first_match (g : Load) (ti : TagInst) (hc : LibCfg g.cfg)
    (hw : g.srcLen ≤ g.mem.length) :
    ∃ w, Skips ti g w ∧
      ((∃ g' v, loadNext w = .ok g' ∧ g'.val = some v ∧ g'.ti = ti ∧ nextByTagInst g ti = .ok g') ∨
       (∃ g', loadNext w = .ok g' ∧ g'.val = none ∧ nextByTagInst g ti = .err .ENOENT g) ∨
       (∃ e g', loadNext w = .err e g' ∧ nextByTagInst g ti = .err e g)) := by
  have hlaw : ∃ hdr dom, g.cfg.Lawful hdr dom := by
    rcases hc with hc | hc
    · exact ⟨_, _, by rw [hc]; exact t8l8v_lawful⟩
    · exact ⟨_, _, by rw [hc]; exact t16l16v_lawful⟩
  obtain ⟨_, _, h⟩ := hlaw
  obtain ⟨w, h1, h2⟩ :=
    nextByTagLoop_spec h ti g.srcLen g (g.srcLen + 2) rfl hw (by omega) (by omega)
  refine ⟨w, h1, ?_⟩
  unfold nextByTagInst
  rcases h2 with ⟨g', v, a, b, d, e⟩ | ⟨g', a, b, d⟩ | ⟨e, g', a, b⟩
  · exact .inl ⟨g', v, a, b, d, by rw [e]⟩
  · exact .inr (.inl ⟨g', a, b, by rw [d]⟩)
  · exact .inr (.inr ⟨e, g', a, by rw [b]⟩)

/-- C05 in terms of the octets: on a window that is the concatenation of IEs, the search from the
start finds the first IE with the tag, if there is one. -/
theorem C05_next_by_tag_on_ies (pre post : List Spec.Ie) (t : Nat) (v rest : List UInt8)
    (hpre : ∀ x ∈ pre, Spec.Fits16 x ∧ x.1 ≠ t) (hv : Spec.Fits16 (t, v)) 
    (bs : List UInt8) (hbs : bs = Spec.octets16 (pre ++ (t, v) :: post)) :
    ∃ g', nextByTag (fresh t16l16v (bs ++ rest) bs.length) t = .ok g' ∧ g'.ti = { tag := t } ∧
      g'.valueBytes = v ∧ endOf g' = (Spec.octets16 (pre ++ [(t, v)])).length := by
  subst hbs
  have key : ∀ (pre : List Spec.Ie) (g : Load) (fuel : Nat), (∀ x ∈ pre, Spec.Fits16 x ∧ x.1 ≠ t) →
      g.At t16l16v (Spec.octets16 (pre ++ (t, v) :: post)) → pre.length < fuel →
      ∃ g', nextByTagLoop { tag := t } fuel g = .ok g' ∧ g'.ti = { tag := t } ∧
        g'.valueBytes = v ∧ g'.pos = g.pos + (Spec.octets16 (pre ++ [(t, v)])).length := by
    intro pre
    induction pre with
    | nil =>
      intro g fuel _ hat hf
      cases fuel with
      | zero => omega
      | succ fuel =>
      have e := (octets16_eq [(t, v)] (by simpa using hv)).1
      have hat' : g.At t16l16v (hdr16 { tag := t } v.length ++ v ++ Spec.octets16 post) := by
        have : Spec.octets16 ([] ++ (t, v) :: post) = Spec.octets16 [(t, v)] ++ Spec.octets16 post := by
          simp [Spec.octets16]
        rw [this, ← e] at hat
        simpa [tlvBytes, asIe] using hat
      obtain ⟨g', h1, _, h3, h4, _, _, _, h8, _, h10, _⟩ := Load.At.next t16l16v_lawful
        (by have := hv.1; have := hv.2; exact ⟨rfl, by simp only at *; omega, by simp only at *; omega⟩) hat'
      refine ⟨g', ?_, h3, h8, ?_⟩
      · simp only [nextByTagLoop, h1, h4]
        rw [if_pos (TagInst.cmp_eq_zero.mpr h3)]
      · rw [h10]; simp [Spec.octets16, Spec.ie16, t16l16v]; omega
    | cons x pre ih =>
      intro g fuel hp hat hf
      obtain ⟨t', v'⟩ := x
      cases fuel with
      | zero => omega
      | succ fuel =>
      have hx := hp (t', v') (by simp)
      have e := (octets16_eq [(t', v')] (by simpa using hx.1)).1
      have hat' : g.At t16l16v (hdr16 { tag := t' } v'.length ++ v' ++
          Spec.octets16 (pre ++ (t, v) :: post)) := by
        have : Spec.octets16 ((t', v') :: pre ++ (t, v) :: post) =
            Spec.octets16 [(t', v')] ++ Spec.octets16 (pre ++ (t, v) :: post) := by
          simp [Spec.octets16]
        rw [this, ← e] at hat
        simpa [tlvBytes, asIe] using hat
      obtain ⟨g', h1, h2, h3, h4, _, _, _, h8, _, h10, _⟩ := Load.At.next t16l16v_lawful
        (by have := hx.1.1; have := hx.1.2; exact ⟨rfl, by simp only at *; omega, by simp only at *; omega⟩) hat'
      obtain ⟨g'', k1, k2, k3, k4⟩ := ih g' fuel (fun y hy => hp y (by simp [hy])) h2
        (by simp at hf; omega)
      refine ⟨g'', ?_, k2, k3, ?_⟩
      · simp only [nextByTagLoop, h1, h4]
        rw [if_neg (fun hh => hx.2 (by
          have := TagInst.cmp_eq_zero.mp hh
          rw [h3] at this; simpa using this))]
        exact k1
      · rw [k4, h10]; simp [Spec.octets16, Spec.ie16, t16l16v]; omega
  have hlen : pre.length ≤ (Spec.octets16 (pre ++ (t, v) :: post)).length := by
    have : ∀ l : List Spec.Ie, l.length ≤ (Spec.octets16 l).length := by
      intro l
      induction l with
      | nil => simp
      | cons x l ih => simp [Spec.octets16, Spec.ie16] at ih ⊢; omega
    have := this (pre ++ (t, v) :: post)
    simp only [List.length_append, List.length_cons] at this; omega
  obtain ⟨g', h1, h2, h3, h4⟩ := key pre
    (fresh t16l16v (Spec.octets16 (pre ++ (t, v) :: post) ++ rest)
      (Spec.octets16 (pre ++ (t, v) :: post)).length) 
    ((Spec.octets16 (pre ++ (t, v) :: post)).length + 2) hpre (fresh_at ..) (by omega)
  refine ⟨g', ?_, h2, h3, ?_⟩
  · unfold nextByTag nextByTagInst
    simp only [fresh] at h1 ⊢
    rw [h1]
  · have hz : (fresh t16l16v (Spec.octets16 (pre ++ (t, v) :: post) ++ rest)
        (Spec.octets16 (pre ++ (t, v) :: post)).length).pos = 0 := rfl
    rw [hz] at h4
    have he : endOf g' = g'.pos := by unfold endOf Load.pos; cases g'.val <;> rfl
    rw [he, h4]; simp

example : (nextByTag (fresh t16l16v [0, 1, 0, 0, 0, 19, 0, 1, 5] 9) 19).toRes.bind
    (fun g => .ok g.valueBytes) = .ok [5] := rfl

/-! ## C06 -/

/-- C06, `osmo_t16l16v_cfg`: which (tag, length, tailroom) are accepted, and what is appended. On
failure nothing is appended (the msgb is not part of the error result, it stays as it is). -/
theorem C06_put_tl_t16l16v (p : Put) (b : Msgb) (tag len : Nat) :
    putTl t16l16v p b tag len =
      if 65535 < tag then .error .EINVAL
      else if 65535 < len then .error .EMSGSIZE
      else if b.cap - b.data.length < 4 then .error .ENOSPC
      else .ok ({ last := some ({ tag := tag }, b.data.length, b.data.length + 4) },
        { b with data := b.data ++ [Spec.octet (tag / 256), Spec.octet (tag % 256),
            Spec.octet (len / 256), Spec.octet (len % 256)] }) := by
  have e : ∀ n : Nat, UInt8.ofNat (n % 256) = UInt8.ofNat n := by
    intro n; apply UInt8.toNat_inj.mp; simp
  unfold putTl putTli
  simp only [t16l16v, Msgb.tailroom, gt_iff_lt]
  by_cases h1 : 65535 < tag
  · simp [h1]
  · by_cases h2 : 65535 < len
    · simp [h1, h2]
    · by_cases h3 : b.cap - b.data.length < 4
      · simp [h1, h2, h3]
      · simp [h1, h2, h3, storeBE, Spec.octet, e]

/-- C06, `osmo_t8l8v_cfg`. -/
theorem C06_put_tl_t8l8v (p : Put) (b : Msgb) (tag len : Nat) :
    putTl t8l8v p b tag len =
      if 255 < tag then .error .EINVAL
      else if 255 < len then .error .EMSGSIZE
      else if b.cap - b.data.length < 2 then .error .ENOSPC
      else .ok ({ last := some ({ tag := tag }, b.data.length, b.data.length + 2) },
        { b with data := b.data ++ [Spec.octet tag, Spec.octet len] }) := by
  unfold putTl putTli
  simp only [t8l8v, Msgb.tailroom, gt_iff_lt]
  by_cases h1 : 255 < tag
  · simp [h1]
  · by_cases h2 : 255 < len
    · simp [h1, h2]
    · by_cases h3 : b.cap - b.data.length < 2
      · simp [h1, h2, h3]
      · simp [h1, h2, h3, storeBE, Spec.octet]

/-- C06: after a successful `osmo_gtlv_put_tl()` and any `v` appended behind it, the length update
changes exactly the two length octets, to the length of `v`, or reports -EMSGSIZE. -/
theorem C06_update_tl_t16l16v (p p' : Put) (b b' : Msgb) (tag len : Nat) (v : List UInt8)
    (h : putTl t16l16v p b tag len = .ok (p', b')) :
    putUpdateTl t16l16v p' { b' with data := b'.data ++ v } =
      if 65535 < v.length then .error .EMSGSIZE
      else .ok (p', { b with data := b.data ++ [Spec.octet (tag / 256), Spec.octet (tag % 256),
            Spec.octet (v.length / 256), Spec.octet (v.length % 256)] ++ v }) := by
  have e : ∀ n : Nat, UInt8.ofNat (n % 256) = UInt8.ofNat n := by
    intro n; apply UInt8.toNat_inj.mp; simp
  rw [C06_put_tl_t16l16v] at h
  split at h
  · simp at h
  · split at h
    · simp at h
    · split at h
      · simp at h
      · rename_i h1 h2 h3
        simp only [Except.ok.injEq, Prod.mk.injEq] at h
        obtain ⟨rfl, rfl⟩ := h
        have hl : ∀ x y z w : UInt8, (b.data ++ [x, y, z, w] ++ v).length - (b.data.length + 4) = v.length := by
          intros; simp only [List.length_append, List.length_cons, List.length_nil]; omega
        unfold putUpdateTl
        simp only [t16l16v, gt_iff_lt]
        rw [hl, if_neg h1]
        by_cases h4 : 65535 < v.length
        · simp [h4]
        · have hm : ¬ (b.data.length + 4 - b.data.length < 4) := by omega
          rw [if_neg h4, if_neg h4, if_neg hm]
          simp [storeBE, Spec.octet, e]

example : (putTl t16l16v {} ⟨64, [7]⟩ 19 0) =
    .ok ({ last := some ({ tag := 19 }, 1, 5) }, ⟨64, [7, 0, 19, 0, 0]⟩) := rfl

/-! ## C07 -/

/-- C07: zero exactly for equal arguments. -/
theorem C07_cmp_zero_iff_eq (a b : Option TagInst) : tagInstCmp a b = 0 ↔ a = b := by
  cases a <;> cases b <;> simp [tagInstCmp, TagInst.cmp_eq_zero]

theorem osmoCmp_swap (a b : Nat) : osmoCmp b a = - osmoCmp a b := by
  unfold osmoCmp; split <;> (try split) <;> (try split) <;> omega

/-- C07: antisymmetric - swapping the arguments flips the sign. -/
theorem C07_cmp_antisymmetric (a b : Option TagInst) : tagInstCmp b a = - tagInstCmp a b := by
  cases a with
  | none => cases b <;> simp [tagInstCmp]
  | some a =>
    cases b with
    | none => simp [tagInstCmp]
    | some b =>
      obtain ⟨t, i⟩ := a
      obtain ⟨t', i'⟩ := b
      unfold tagInstCmp TagInst.cmp
      simp only
      rw [osmoCmp_swap t t']
      by_cases h : osmoCmp t t' = 0
      · cases i with
        | none => cases i' <;> (simp only [h]; simp [osmoCmp])
        | some i =>
          cases i' with
          | none => simp only [h]; simp [osmoCmp]
          | some i' =>
            have hz : osmoCmp 1 1 = 0 := rfl
            simp [h, hz, osmoCmp_swap i i']
      · rw [if_pos (by omega), if_pos h]

/-- The order that `osmo_gtlv_tag_inst_cmp()` implements, stated outright: NULL first, then by tag,
then IEs without instance before those with one, then by instance number. -/
def tagInstLt : Option TagInst → Option TagInst → Prop
  | none, none => False
  | none, some _ => True
  | some _, none => False
  | some a, some b =>
    a.tag < b.tag ∨ (a.tag = b.tag ∧
      match a.inst, b.inst with
      | none, some _ => True
      | some i, some j => i < j
      | _, none => False)

/-- C07: the sign of the result is this order. -/
theorem C07_cmp_neg_iff_lt (a b : Option TagInst) : tagInstCmp a b < 0 ↔ tagInstLt a b := by
  cases a with
  | none => cases b <;> simp [tagInstCmp, tagInstLt]
  | some a =>
    cases b with
    | none => simp [tagInstCmp, tagInstLt]
    | some b =>
      obtain ⟨t, i⟩ := a
      obtain ⟨t', i'⟩ := b
      simp only [tagInstCmp, TagInst.cmp, tagInstLt]
      rcases Nat.lt_trichotomy t t' with h | h | h
      · simp [osmoCmp, h]
      · subst h
        cases i <;> cases i' <;> simp [osmoCmp]
        split <;> (try split) <;> omega
      · simp [osmoCmp, h, Nat.not_lt.mpr (Nat.le_of_lt h)]; omega

/-- C07: transitive. -/
theorem C07_cmp_transitive (a b c : Option TagInst) (h1 : tagInstCmp a b < 0)
    (h2 : tagInstCmp b c < 0) : tagInstCmp a c < 0 := by
  rw [C07_cmp_neg_iff_lt] at *
  cases a <;> cases b <;> cases c <;> simp_all [tagInstLt]
  rename_i a b c
  obtain ⟨t, i⟩ := a
  obtain ⟨t', i'⟩ := b
  obtain ⟨t'', i''⟩ := c
  cases i <;> cases i' <;> cases i'' <;> simp_all <;> omega

example : tagInstCmp (some { tag := 3 }) (some { tag := 3, inst := some 0 }) < 0 ∧
    tagInstCmp (some { tag := 3, inst := some 0 }) (some { tag := 4 }) < 0 := by decide

end Verif.Props
