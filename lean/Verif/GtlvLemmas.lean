/- Helper lemmas about the TLV loader and writer (no property theorems here). -/
import Verif.BasicLemmas
import Verif.Gtlv

namespace Verif

/-- Concatenation of TLVs, given the coding of a TL header. -/
def tlvBytes (hdr : TagInst → Nat → List UInt8) : List (TagInst × List UInt8) → List UInt8
  | [] => []
  | (ti, v) :: rest => hdr ti v.length ++ v ++ tlvBytes hdr rest

/-- What the generic proofs need to know about a configuration with fixed-size TL headers. -/
structure Cfg.Lawful (c : Cfg) (hdr : TagInst → Nat → List UInt8) (dom : TagInst → Nat → Prop) :
    Prop where
  tlMin_pos : 0 < c.tlMin
  hdr_len : ∀ ti len, (hdr ti len).length = c.tlMin
  store : ∀ avail ti len, dom ti len → c.tlMin ≤ avail → c.storeTl avail ti len = .ok (hdr ti len)
  store_inv : ∀ avail ti len bs, c.storeTl avail ti len = .ok bs →
    bs = hdr ti len ∧ c.tlMin ≤ avail
  store_err : ∀ avail ti len, avail < c.tlMin → ∃ e, c.storeTl avail ti len = .error e
  load : ∀ p n, c.tlMin ≤ p.length → ∃ tl, c.loadTl p n = .ok tl ∧ tl.hdr = c.tlMin ∧
    dom tl.ti tl.len ∧ p.take c.tlMin = hdr tl.ti tl.len
  inj : ∀ ti len ti' len', dom ti len → dom ti' len' → hdr ti len = hdr ti' len' →
    ti = ti' ∧ len = len'

def hdr8 (ti : TagInst) (len : Nat) : List UInt8 := storeBE 1 ti.tag ++ storeBE 1 len
def hdr16 (ti : TagInst) (len : Nat) : List UInt8 := storeBE 2 ti.tag ++ storeBE 2 len
def dom8 (ti : TagInst) (len : Nat) : Prop := ti.inst = none ∧ ti.tag < 256 ∧ len < 256
def dom16 (ti : TagInst) (len : Nat) : Prop := ti.inst = none ∧ ti.tag < 65536 ∧ len < 65536

theorem TagInst.ext' {a b : TagInst} (h : a.tag = b.tag) (h2 : a.inst = b.inst) : a = b := by
  cases a; cases b; simp_all

theorem t8l8v_lawful : t8l8v.Lawful hdr8 dom8 where
  tlMin_pos := by decide
  hdr_len := by intros; simp [hdr8, t8l8v]
  store := by
    rintro avail ti len ⟨_, h1, h2⟩ h3
    simp only [t8l8v] at h3 ⊢
    rw [if_neg (by omega), if_neg (by omega), if_neg (by omega)]; rfl
  store_inv := by
    intro avail ti len bs h
    simp only [t8l8v] at h ⊢
    split at h
    · simp at h
    · split at h
      · simp at h
      · split at h
        · simp at h
        · simp only [Except.ok.injEq] at h; exact ⟨h.symm, by omega⟩
  store_err := by
    intro avail ti len h
    simp only [t8l8v] at h ⊢
    rw [if_pos h]
    split
    · exact ⟨_, rfl⟩
    · split <;> exact ⟨_, rfl⟩
  load := by
    intro p n h
    match p, h with
    | a :: b :: p, _ =>
      refine ⟨{ ti := { tag := a.toNat }, len := b.toNat, hdr := 2 }, ?_, rfl, ?_, ?_⟩
      · simp [t8l8v]
      · exact ⟨rfl, a.toNat_lt, b.toNat_lt⟩
      · simp [hdr8, storeBE, t8l8v]
  inj := by
    rintro ti len ti' len' ⟨hi, h1, h2⟩ ⟨hi', h1', h2'⟩ h
    have := List.append_inj h (by simp)
    exact ⟨TagInst.ext' (storeBE_inj (n := 1) (by simpa) (by simpa) this.1) (by rw [hi, hi']),
      storeBE_inj (n := 1) (by simpa) (by simpa) this.2⟩

theorem t16l16v_lawful : t16l16v.Lawful hdr16 dom16 where
  tlMin_pos := by decide
  hdr_len := by intros; simp [hdr16, t16l16v]
  store := by
    rintro avail ti len ⟨_, h1, h2⟩ h3
    simp only [t16l16v] at h3 ⊢
    rw [if_neg (by omega), if_neg (by omega), if_neg (by omega)]; rfl
  store_inv := by
    intro avail ti len bs h
    simp only [t16l16v] at h ⊢
    split at h
    · simp at h
    · split at h
      · simp at h
      · split at h
        · simp at h
        · simp only [Except.ok.injEq] at h; exact ⟨h.symm, by omega⟩
  store_err := by
    intro avail ti len h
    simp only [t16l16v] at h ⊢
    rw [if_pos h]
    split
    · exact ⟨_, rfl⟩
    · split <;> exact ⟨_, rfl⟩
  load := by
    intro p n h
    match p, h with
    | a :: b :: c :: d :: p, _ =>
      refine ⟨{ ti := { tag := loadBE [a, b] }, len := loadBE [c, d], hdr := 4 }, ?_, rfl, ?_, ?_⟩
      · simp [t16l16v, rdN]
      · exact ⟨rfl, by simpa using loadBE_lt [a, b], by simpa using loadBE_lt [c, d]⟩
      · simp [hdr16, t16l16v, storeBE_loadBE' (n := 2)]
  inj := by
    rintro ti len ti' len' ⟨hi, h1, h2⟩ ⟨hi', h1', h2'⟩ h
    have := List.append_inj h (by simp)
    exact ⟨TagInst.ext' (storeBE_inj (n := 2) (by simpa) (by simpa) this.1) (by rw [hi, hi']),
      storeBE_inj (n := 2) (by simpa) (by simpa) this.2⟩

/-- Offset of the next IE. -/
def Load.pos (g : Load) : Nat :=
  match g.val with
  | none => 0
  | some v => v + g.len

/-- Octets of the window not yet consumed. -/
def Load.rest (g : Load) : List UInt8 := (g.mem.take g.srcLen).drop g.pos

theorem Load.rest_length {g : Load} (hw : g.srcLen ≤ g.mem.length) :
    g.rest.length = g.srcLen - g.pos := by
  simp [Load.rest]; omega

theorem nextTlValid_eq (g : Load) : nextTlValid g =
    if g.pos > g.srcLen then .error .ENOSPC
    else if g.srcLen - g.pos ≠ 0 ∧ g.srcLen - g.pos < g.cfg.tlMin then .error .EBADMSG
    else .ok (g.pos, g.srcLen - g.pos) := by
  unfold nextTlValid Load.pos
  cases g.val <;> simp only <;> split <;> try rfl
  all_goals
    congr 1
    apply propext
    constructor
    · rintro ⟨h1, h2⟩; exact ⟨h1, by omega⟩
    · rintro ⟨h1, h2⟩; exact ⟨h1, .inl h2⟩

section Generic
variable {c : Cfg} {hdr : TagInst → Nat → List UInt8} {dom : TagInst → Nat → Prop}

/-- Loading a header that was stored. -/
theorem Cfg.Lawful.load_hdr (h : c.Lawful hdr dom) {ti : TagInst} {len n : Nat} {rest : List UInt8}
    (hd : dom ti len) :
    c.loadTl (hdr ti len ++ rest) n = .ok { ti := ti, len := len, hdr := c.tlMin } := by
  obtain ⟨tl, h1, h2, h3, h4⟩ := h.load (hdr ti len ++ rest) n (by simp [h.hdr_len])
  rw [← h.hdr_len ti len, List.take_left] at h4
  obtain ⟨ha, hb⟩ := h.inj _ _ _ _ hd h3 h4
  rw [h1]; cases tl; simp_all

/-- Complete description of one `loadNext` on a readable window. -/
theorem loadNext_cases (h : c.Lawful hdr dom) (g : Load) (hc : g.cfg = c)
    (hw : g.srcLen ≤ g.mem.length) :
    (g.pos > g.srcLen ∧ loadNext g = .err .ENOSPC g) ∨
    (g.pos = g.srcLen ∧ loadNext g = .ok { g with val := none }) ∨
    (g.pos < g.srcLen ∧ g.srcLen - g.pos < c.tlMin ∧ loadNext g = .err .EBADMSG g) ∨
    (g.pos < g.srcLen ∧ c.tlMin ≤ g.srcLen - g.pos ∧ ∃ ti len, dom ti len ∧
      g.rest.take c.tlMin = hdr ti len ∧
      ((g.srcLen < g.pos + c.tlMin + len ∧
          loadNext g = .err .EBADMSG { g with ti := ti, len := len, val := some (g.pos + c.tlMin) }) ∨
       (g.pos + c.tlMin + len ≤ g.srcLen ∧
          loadNext g = .ok { g with ti := ti, len := len, val := some (g.pos + c.tlMin) }))) := by
  subst hc
  unfold loadNext
  rw [nextTlValid_eq]
  by_cases h1 : g.pos > g.srcLen
  · left; simp [h1]
  · right
    by_cases h2 : g.pos = g.srcLen
    · left; simp [h2]
    · right
      have h3 : g.pos < g.srcLen := by omega
      by_cases h4 : g.srcLen - g.pos < g.cfg.tlMin
      · left
        refine ⟨h3, h4, ?_⟩
        rw [if_neg h1, if_pos ⟨by omega, h4⟩]
      · right
        refine ⟨h3, by omega, ?_⟩
        rw [if_neg h1, if_neg (by omega)]
        simp only
        rw [if_neg (by omega)]
        obtain ⟨tl, l1, l2, l3, l4⟩ := h.load (g.mem.drop g.pos) (g.srcLen - g.pos)
          (by simp; omega)
        refine ⟨tl.ti, tl.len, l3, ?_, ?_⟩
        · rw [← l4]
          simp only [Load.rest, List.drop_take, List.take_take]
          congr 1
          omega
        · rw [l1]
          simp only [l2]
          by_cases h5 : g.pos + g.cfg.tlMin + tl.len > g.srcLen
          · left; exact ⟨h5, by rw [if_pos h5]⟩
          · right; exact ⟨by omega, by rw [if_neg h5]⟩

/-- `loadNext` when the unread octets start with a TLV. -/
theorem loadNext_tlv (h : c.Lawful hdr dom) (g : Load) (hc : g.cfg = c)
    (hw : g.srcLen ≤ g.mem.length) (hp : g.pos ≤ g.srcLen) {ti : TagInst} {v rest : List UInt8}
    (hd : dom ti v.length) (hr : g.rest = hdr ti v.length ++ v ++ rest) :
    loadNext g = .ok { g with ti := ti, len := v.length, val := some (g.pos + c.tlMin) } := by
  have hlen := Load.rest_length hw
  rw [hr] at hlen
  simp [h.hdr_len] at hlen
  have hpos := h.tlMin_pos
  rcases loadNext_cases h g hc hw with ⟨h1, _⟩ | ⟨h1, _⟩ | ⟨h1, h2, _⟩ | ⟨h1, h2, ti', len', d, t, h3⟩
  · omega
  · omega
  · omega
  · rw [hr, List.append_assoc, ← h.hdr_len ti v.length, List.take_left] at t
    obtain ⟨ha, hb⟩ := h.inj _ _ _ _ hd d t
    subst ha hb
    rcases h3 with ⟨h4, _⟩ | ⟨_, h5⟩
    · omega
    · exact h5

theorem loadNext_end (g : Load) (hp : g.pos = g.srcLen) : loadNext g = .ok { g with val := none } := by
  unfold loadNext
  rw [nextTlValid_eq]
  simp [hp]

/-- Invariant of a loader positioned at the start of the octets `bs`. -/
structure Load.At (g : Load) (c : Cfg) (bs : List UInt8) : Prop where
  cfg : g.cfg = c
  window : g.srcLen ≤ g.mem.length
  pos_le : g.pos ≤ g.srcLen
  rest : g.rest = bs

theorem Load.At.next (h : c.Lawful hdr dom) {g : Load} {ti : TagInst} {v rest : List UInt8}
    (hd : dom ti v.length) (ha : g.At c (hdr ti v.length ++ v ++ rest)) :
    ∃ g', loadNext g = .ok g' ∧ g'.At c rest ∧ g'.ti = ti ∧ g'.val = some (g.pos + c.tlMin) ∧
      g'.len = v.length ∧ g'.mem = g.mem ∧ g'.srcLen = g.srcLen ∧
      g'.valueBytes = v ∧ (∃ tail, g'.valueMem = v ++ tail) ∧ g'.pos = g.pos + c.tlMin + v.length ∧
      g'.valueMem = v ++ (rest ++ g.mem.drop g.srcLen) := by
  have hn := loadNext_tlv h g ha.cfg ha.window ha.pos_le hd ha.rest
  have hl := Load.rest_length ha.window
  rw [ha.rest] at hl
  simp [h.hdr_len] at hl
  have hmem : g.mem.drop g.pos = hdr ti v.length ++ v ++ rest ++ g.mem.drop g.srcLen := by
    have := ha.rest
    unfold Load.rest at this
    rw [← this]
    conv => lhs; rw [← List.take_append_drop g.srcLen g.mem]
    rw [List.drop_append_of_le_length (by simp; have := ha.window; have := ha.pos_le; omega)]
  have hv : g.mem.drop (g.pos + c.tlMin) = v ++ (rest ++ g.mem.drop g.srcLen) := by
    rw [← List.drop_drop, hmem, ← h.hdr_len ti v.length]
    simp [List.append_assoc]
  refine ⟨_, hn, ⟨ha.cfg, ha.window, ?_, ?_⟩, rfl, rfl, rfl, rfl, rfl, ?_, ?_, rfl, hv⟩
  · have hq := ha.pos_le
    have hp : 0 < c.tlMin := h.tlMin_pos
    show g.pos + c.tlMin + v.length ≤ g.srcLen
    omega
  · have := ha.rest
    unfold Load.rest at this ⊢
    simp only [Load.pos]
    simp only [Load.pos] at this
    rw [Nat.add_assoc, ← List.drop_drop, this, ← h.hdr_len ti v.length, ← List.length_append,
      List.drop_left]
  · simp only [Load.valueBytes]; rw [hv]; simp
  · exact ⟨_, hv⟩

theorem Load.At.done (_h : c.Lawful hdr dom) {g : Load} (ha : g.At c []) :
    loadNext g = .ok { g with val := none } := by
  apply loadNext_end
  have hl := Load.rest_length ha.window
  rw [ha.rest] at hl
  have := ha.pos_le
  simp at hl; omega

/-- All TLVs of a list are in the domain of the configuration. -/
def tlvsDom (dom : TagInst → Nat → Prop) (l : List (TagInst × List UInt8)) : Prop :=
  ∀ x ∈ l, dom x.1 x.2.length

theorem loadAllLoop_tlvs (h : c.Lawful hdr dom) (l : List (TagInst × List UInt8))
    (hd : tlvsDom dom l) (g : Load) (ha : g.At c (tlvBytes hdr l)) (acc) (fuel : Nat)
    (hf : l.length < fuel) :
    loadAllLoop fuel g acc = .ok (acc.reverse ++ l) := by
  induction l generalizing g acc fuel with
  | nil =>
    cases fuel with
    | zero => omega
    | succ fuel => simp [loadAllLoop, Load.At.done h ha]
  | cons x l ih =>
    obtain ⟨ti, v⟩ := x
    cases fuel with
    | zero => omega
    | succ fuel =>
      obtain ⟨g', h1, h2, h3, h4, _, _, _, h5, _⟩ :=
        Load.At.next h (hd (ti, v) (by simp)) (rest := tlvBytes hdr l) ha
      simp only [loadAllLoop, h1, h4]
      rw [ih (fun x hx => hd x (by simp [hx])) g' h2 _ _ (by simp at hf; omega)]
      simp [h3, h5]

/-- The full outcome of the read loop on any readable window. -/
theorem loadAllLoop_total (h : c.Lawful hdr dom) (n : Nat) : ∀ (g : Load) (acc) (fuel : Nat),
    g.cfg = c → g.srcLen ≤ g.mem.length → g.pos ≤ g.srcLen → g.srcLen - g.pos ≤ n →
    n / c.tlMin < fuel →
    (∃ l, tlvsDom dom l ∧ g.rest = tlvBytes hdr l ∧ loadAllLoop fuel g acc = .ok (acc.reverse ++ l)) ∨
    (∃ e, loadAllLoop fuel g acc = .err e ∧ ∀ l, tlvsDom dom l → g.rest ≠ tlvBytes hdr l) := by
  induction n using Nat.strongRecOn with
  | _ n ih =>
  intro g acc fuel hc hw hp hn hf
  have hpos := h.tlMin_pos
  have hlen := Load.rest_length hw
  cases fuel with
  | zero => exact absurd hf (Nat.not_lt_zero _)
  | succ fuel =>
  rcases loadNext_cases h g hc hw with ⟨h1, _⟩ | ⟨h1, h2⟩ | ⟨h1, h2, h3⟩ |
    ⟨h1, h2, ti, len, hd, ht, h3⟩
  · omega
  · left
    refine ⟨[], by simp [tlvsDom], ?_, by simp [loadAllLoop, h2]⟩
    simp [tlvBytes]; apply List.length_eq_zero_iff.mp; omega
  · right
    refine ⟨.EBADMSG, by simp [loadAllLoop, h3], ?_⟩
    intro l hl heq
    cases l with
    | nil => simp [tlvBytes] at heq; rw [heq] at hlen; simp at hlen; omega
    | cons x l =>
      rw [heq] at hlen; simp [tlvBytes, h.hdr_len] at hlen; omega
  · rcases h3 with ⟨h4, h5⟩ | ⟨h4, h5⟩
    · right
      refine ⟨.EBADMSG, by simp [loadAllLoop, h5], ?_⟩
      intro l hl heq
      cases l with
      | nil => simp [tlvBytes] at heq; rw [heq] at hlen; simp at hlen; omega
      | cons x l =>
        rw [heq] at ht hlen
        simp only [tlvBytes, List.append_assoc] at ht
        rw [← h.hdr_len x.1 x.2.length, List.take_left] at ht
        obtain ⟨ha, hb⟩ := h.inj _ _ _ _ (hl x (by simp)) hd ht
        simp [tlvBytes, h.hdr_len] at hlen; omega
    · have hrest : g.rest = hdr ti len ++ (g.rest.drop c.tlMin) := by
        rw [← ht, List.take_append_drop]
      let v := (g.rest.drop c.tlMin).take len
      have hvl : v.length = len := by simp [v]; omega
      have hrest2 : g.rest = hdr ti v.length ++ v ++ g.rest.drop (c.tlMin + len) := by
        rw [hvl, List.append_assoc]
        conv => lhs; rw [hrest]
        rw [← List.drop_drop, List.take_append_drop]
      have hAt : g.At c (hdr ti v.length ++ v ++ g.rest.drop (c.tlMin + len)) :=
        ⟨hc, hw, hp, hrest2⟩
      obtain ⟨g', e1, e2, e3, e4, e5, e6, e7, e8, _, e10⟩ := Load.At.next h (by rwa [hvl]) hAt
      have hdiv : (n - c.tlMin) / c.tlMin + 1 = n / c.tlMin := by
        have h10 : c.tlMin ≤ n := by omega
        rw [← Nat.div_eq_sub_div hpos h10]
      have ih' := ih (n - c.tlMin) (by omega) g' ((g'.ti, g'.valueBytes) :: acc) fuel
        e2.cfg e2.window e2.pos_le (by omega) (by omega)
      simp only [loadAllLoop, e1, e4]
      rw [e3, e8] at ih' ⊢
      rcases ih' with ⟨l, l1, l2, l3⟩ | ⟨e, l1, l2⟩
      · left
        refine ⟨(ti, v) :: l, ?_, ?_, ?_⟩
        · intro x hx
          rcases List.mem_cons.mp hx with rfl | hx
          · simpa [hvl] using hd
          · exact l1 x hx
        · rw [hrest2]; simp only [tlvBytes]; rw [← e2.rest, l2]
        · rw [l3]; simp
      · right
        refine ⟨e, l1, ?_⟩
        intro l hl heq
        cases l with
        | nil => simp [tlvBytes] at heq; rw [heq] at hlen; simp at hlen; omega
        | cons x l =>
          have ht2 := ht
          rw [heq] at ht2
          simp only [tlvBytes, List.append_assoc] at ht2
          rw [← h.hdr_len x.1 x.2.length, List.take_left] at ht2
          obtain ⟨ha, hb⟩ := h.inj _ _ _ _ (hl x (by simp)) hd ht2
          apply l2 l (fun y hy => hl y (by simp [hy]))
          rw [e2.rest, heq]
          simp only [tlvBytes]
          rw [← hb, ← h.hdr_len x.1 x.2.length, ← List.length_append, List.drop_left]

theorem tlvBytes_append (a b : List (TagInst × List UInt8)) :
    tlvBytes hdr (a ++ b) = tlvBytes hdr a ++ tlvBytes hdr b := by
  induction a with
  | nil => rfl
  | cons x a ih => simp [tlvBytes, ih]

theorem tlvBytes_length_ge (h : c.Lawful hdr dom) (l : List (TagInst × List UInt8)) :
    l.length * c.tlMin ≤ (tlvBytes hdr l).length := by
  induction l with
  | nil => simp
  | cons x l ih => simp [tlvBytes, h.hdr_len, Nat.add_mul]; omega

/-- One complete IE put. -/
theorem putTlv_eq (h : c.Lawful hdr dom) (p : Put) (b : Msgb) (ti : TagInst) (v : List UInt8)
    (hd : dom ti v.length) (hd0 : dom ti 0) (hroom : b.data.length + c.tlMin + v.length ≤ b.cap) :
    putTlv c p b ti v = .ok ({ last := some (ti, b.data.length, b.data.length + c.tlMin) },
      { b with data := b.data ++ (hdr ti v.length ++ v) }) := by
  unfold putTlv putTli
  rw [h.store _ _ _ hd0 (by simp [Msgb.tailroom]; omega)]
  have hput : Msgb.put { cap := b.cap, data := b.data ++ hdr ti 0 } v =
      .ok { cap := b.cap, data := b.data ++ hdr ti 0 ++ v } := by
    unfold Msgb.put
    rw [if_pos (by simp [h.hdr_len]; omega)]
  simp only [hput, putUpdateTl]
  have hlen : (b.data ++ hdr ti 0 ++ v).length - (b.data.length + (hdr ti 0).length) = v.length := by
    simp [h.hdr_len]; omega
  rw [hlen, h.store _ _ _ hd (by simp [h.hdr_len])]
  have hdrop : (b.data ++ hdr ti 0 ++ v).drop (b.data.length + (hdr ti v.length).length) = v := by
    rw [h.hdr_len, ← h.hdr_len ti 0, ← List.length_append, List.drop_left]
  simp only
  rw [hdrop, h.hdr_len]
  simp [List.append_assoc]

theorem putTlvs_eq (h : c.Lawful hdr dom) (l : List (TagInst × List UInt8)) (p : Put) (b : Msgb)
    (hd : tlvsDom dom l) (hd0 : ∀ x ∈ l, dom x.1 0)
    (hroom : b.data.length + (tlvBytes hdr l).length ≤ b.cap) :
    ∃ p', putTlvs c p b l = .ok (p', { b with data := b.data ++ tlvBytes hdr l }) := by
  induction l generalizing p b with
  | nil => exact ⟨p, by simp [putTlvs, tlvBytes]⟩
  | cons x l ih =>
    obtain ⟨ti, v⟩ := x
    simp [tlvBytes, h.hdr_len] at hroom
    simp only [putTlvs]
    rw [putTlv_eq h p b ti v (hd (ti, v) (by simp)) (hd0 (ti, v) (by simp)) (by omega)]
    simp only
    obtain ⟨p', hp⟩ := ih { last := some (ti, b.data.length, b.data.length + c.tlMin) }
      { b with data := b.data ++ (hdr ti v.length ++ v) }
      (fun y hy => hd y (by simp [hy])) (fun y hy => hd0 y (by simp [hy]))
      (by simp [h.hdr_len]; omega)
    exact ⟨p', by rw [hp]; simp [tlvBytes, List.append_assoc]⟩

end Generic

theorem dom8_zero {ti n} (h : dom8 ti n) : dom8 ti 0 := ⟨h.1, h.2.1, by omega⟩
theorem dom16_zero {ti n} (h : dom16 ti n) : dom16 ti 0 := ⟨h.1, h.2.1, by omega⟩

/-! ### comparison -/

theorem osmoCmp_zero {a b : Nat} : osmoCmp a b = 0 ↔ a = b := by
  unfold osmoCmp; split <;> (try split) <;> omega

theorem TagInst.cmp_eq_zero {a b : TagInst} : a.cmp b = 0 ↔ a = b := by
  unfold TagInst.cmp
  constructor
  · intro h
    simp only at h
    by_cases h1 : osmoCmp a.tag b.tag = 0
    · rw [if_neg (by simpa using h1)] at h
      rw [osmoCmp_zero] at h1
      apply TagInst.ext' h1
      cases ha : a.inst <;> cases hb : b.inst <;> simp_all [osmoCmp_zero] <;> simp [osmoCmp] at h
    · rw [if_pos h1] at h; contradiction
  · rintro rfl
    cases ha : a.inst <;> simp [osmoCmp]

end Verif
