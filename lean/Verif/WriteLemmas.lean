/-
Lemmas for C106.
-/
import Verif.SpecWrite
import Verif.RoomLemmas
import Verif.PropsOrdAll

namespace Verif
open Spec Props
variable {A : Type}

/-! ### Encoders that append -/

theorem content_behind (r : Out (List UInt8)) (c : Msgb) (hc : c.data = []) : content (behind c r) = r := by
  cases r <;> simp [behind, content, hc]

theorem AddsTo.put (o : List UInt8) : AddsTo fun b => b.put o := by
  intro b hb
  simp only [Msgb.put, List.length_nil, Nat.zero_add, List.nil_append]
  by_cases h : b.data.length + o.length ≤ b.cap
  · rw [if_pos h, if_pos (by omega)]
    refine ⟨rfl, ?_⟩
    intro b' hb'
    simp only [Out.ok.injEq] at hb'
    subst hb'
    simpa using h
  · rw [if_neg h, if_neg (by omega)]
    exact ⟨rfl, nofun⟩

theorem AddsTo.ok : AddsTo fun b => .ok b := by
  intro b hb
  refine ⟨by simp [behind, content], ?_⟩
  intro b' hb'
  simp only [Out.ok.injEq] at hb'
  subst hb'
  exact hb

theorem AddsTo.err (e : Errno) : AddsTo fun b => .err e b := fun b _ => ⟨by simp [behind, content], nofun⟩
theorem AddsTo.ub : AddsTo fun _ => .ub := fun _ _ => ⟨rfl, nofun⟩

theorem AddsTo.bind {f g : Msgb → Out Msgb} (hf : AddsTo f) (hg : AddsTo g) : AddsTo fun b => (f b).bind g := by
  intro b hb
  obtain ⟨f1, f2⟩ := hf b hb
  have hc : ({ cap := b.cap - b.data.length, data := [] } : Msgb).data.length ≤ b.cap - b.data.length := by simp
  obtain ⟨c1, c2⟩ := hf { cap := b.cap - b.data.length, data := [] } hc
  simp only [List.length_nil, Nat.sub_zero] at c1
  generalize hx : f { cap := b.cap - b.data.length, data := [] } = x at f1 c1 c2
  cases x with
  | ok b1 =>
    simp only [content, behind, List.nil_append, Out.ok.injEq] at f1 c1
    have l1 := c2 b1 rfl
    simp only at l1
    have l2 := f2 _ f1
    simp only at l2
    have e1 : b1 = ⟨b.cap - b.data.length, b1.data⟩ := c1
    obtain ⟨g1, g2⟩ := hg ⟨b.cap, b.data ++ b1.data⟩ l2
    obtain ⟨g3, -⟩ := hg ⟨b.cap - b.data.length, b1.data⟩ l1
    simp only [f1, hx, Out.bind]
    rw [e1]
    simp only [List.length_append] at g1 g3
    rw [Nat.sub_sub] at g3
    refine ⟨?_, fun b' hb' => g2 b' hb'⟩
    rw [g1, g3]
    cases content (g ⟨b.cap - (b.data.length + b1.data.length), []⟩) <;> simp [behind, content]
  | err e b1 =>
    simp only [content, behind] at f1
    simp only [f1, hx, Out.bind]
    exact ⟨rfl, nofun⟩
  | abort => simp only [content, behind] at f1; simp only [f1, hx, Out.bind]; exact ⟨rfl, nofun⟩
  | ub => simp only [content, behind] at f1; simp only [f1, hx, Out.bind]; exact ⟨rfl, nofun⟩
  | diverge => simp only [content, behind] at f1; simp only [f1, hx, Out.bind]; exact ⟨rfl, nofun⟩

theorem AddsTo.ite {f g : Msgb → Out Msgb} (p : Prop) [Decidable p] (hf : AddsTo f) (hg : AddsTo g) :
    AddsTo fun b => if p then f b else g b := by
  split
  · exact hf
  · exact hg

theorem AddsTo.num (k v : Nat) : AddsTo fun b => b.num k v := AddsTo.put _
theorem AddsTo.opt (p : Bool) (k v : Nat) : AddsTo fun b => b.opt p k v := AddsTo.ite _ (AddsTo.num k v) AddsTo.ok
theorem AddsTo.addr (p : Bool) (f : Sockaddr → Bool) (l : Nat) (a : Sockaddr) : AddsTo fun b => b.addr p f l a :=
  AddsTo.ite _ (AddsTo.ite _ (AddsTo.put _) (AddsTo.err _)) AddsTo.ok
theorem AddsTo.agree (x y : Bool) (o : List UInt8) : AddsTo fun b => b.agree x y o :=
  AddsTo.ite _ (AddsTo.err _) (AddsTo.ite _ (AddsTo.put _) AddsTo.ok)

theorem AddsTo.name (s : List UInt8) : AddsTo (encName s) := by
  intro b hb
  have ht : Msgb.tailroom { cap := b.cap - b.data.length, data := [] } = b.tailroom := by simp [Msgb.tailroom]
  simp only [encName, ht]
  cases apnFromStr b.tailroom s with
  | none => exact AddsTo.err _ b hb
  | some o => exact AddsTo.put o b hb

theorem ieEnc_appends (v : IeVal) : AddsTo (ieEnc v) := by
  unfold ieEnc
  cases v with
  | cause v => exact AddsTo.num _ _
  | offendingIe v => exact AddsTo.num _ _
  | u8 v => exact AddsTo.num _ _
  | u16 v => exact AddsTo.num _ _
  | u32 v => exact AddsTo.num _ _
  | ifaceType v => exact AddsTo.num _ _
  | sourceIface v => exact AddsTo.num _ _
  | destIface v => exact AddsTo.num _ _
  | nodeId v =>
    cases v with
    | v4 a => exact AddsTo.bind (AddsTo.num _ _) (AddsTo.put _)
    | v6 a => exact AddsTo.bind (AddsTo.num _ _) (AddsTo.put _)
    | fqdn s => exact AddsTo.bind (AddsTo.num _ _) (AddsTo.name s)
    | other t => exact AddsTo.bind (AddsTo.num _ _) (AddsTo.err _)
  | upFeatures bits => exact AddsTo.put _
  | cpFeatures bits => exact AddsTo.put _
  | fSeid v =>
    exact AddsTo.bind (AddsTo.num _ _) (AddsTo.bind (AddsTo.num _ _) (AddsTo.bind (AddsTo.addr _ _ _ _) (AddsTo.addr _ _ _ _)))
  | fTeid v =>
    cases v with
    | fixed t ip =>
      exact AddsTo.bind (AddsTo.num _ _) (AddsTo.bind (AddsTo.num _ _) (AddsTo.bind (AddsTo.addr _ _ _ _) (AddsTo.addr _ _ _ _)))
    | choose a b c d => exact AddsTo.bind (AddsTo.num _ _) (AddsTo.opt _ _ _)
  | applyAction bits => exact AddsTo.put _
  | networkInst s => exact AddsTo.name s
  | ohc v =>
    simp only [encOhc]
    refine AddsTo.bind (AddsTo.put _) ?_
    cases ohcParts v.desc with
    | ok parts =>
      exact AddsTo.bind (AddsTo.agree _ _ _) (AddsTo.bind (AddsTo.agree _ _ _) (AddsTo.bind (AddsTo.agree _ _ _)
        (AddsTo.bind (AddsTo.agree _ _ _) (AddsTo.bind (AddsTo.agree _ _ _) (AddsTo.agree _ _ _)))))
    | _ => exact AddsTo.ub
  | apr s => exact AddsTo.ite _ (AddsTo.put _) AddsTo.ok
  | ohr v => exact AddsTo.bind (AddsTo.num _ _) (AddsTo.opt _ _ _)
  | ueIp v =>
    exact AddsTo.bind (AddsTo.num _ _) (AddsTo.bind (AddsTo.addr _ _ _ _) (AddsTo.bind (AddsTo.addr _ _ _ _)
      (AddsTo.bind (AddsTo.opt _ _ _) (AddsTo.opt _ _ _))))

/-! ### Tag and length -/

theorem hdr_be (w : Width) (ti : TagInst) (n : Nat) : Width.hdr w ti n = be (w.tl / 2) ti.tag ++ be (w.tl / 2) n := by
  simp only [be_eq]; cases w <;> rfl

theorem hdr_length (w : Width) (ti : TagInst) (n : Nat) : (Width.hdr w ti n).length = w.tl := by
  rw [(Width.lawful w).hdr_len, Width.tlMin]

theorem ieOctets_eq (w : Width) (t : TagInst) (n : Nat) (c : List UInt8) : w.ieOctets (t, n, c) = Width.hdr w t n ++ c := by
  simp [Width.ieOctets, hdr_be]

/-- When a TL can be stored. -/
theorem storeTl_ok (w : Width) (avail : Nat) (ti : TagInst) (n : Nat) (ht : ti.tag ≤ w.largest) (hn : n ≤ w.largest)
    (ha : w.tl ≤ avail) : w.cfg.storeTl avail ti n = .ok (Width.hdr w ti n) := by
  cases w with
  | w8 =>
    simp only [Width.largest, Width.tl] at ht hn ha
    simp only [Width.cfg, t8l8v]
    rw [if_neg (by omega), if_neg (by omega), if_neg (by omega)]; rfl
  | w16 =>
    simp only [Width.largest, Width.tl] at ht hn ha
    simp only [Width.cfg, t16l16v]
    rw [if_neg (by omega), if_neg (by omega), if_neg (by omega)]; rfl

theorem storeTl_fails (w : Width) (avail : Nat) (ti : TagInst) (n : Nat)
    (h : ¬ (ti.tag ≤ w.largest ∧ n ≤ w.largest ∧ w.tl ≤ avail)) : ∃ e, w.cfg.storeTl avail ti n = .error e := by
  cases w with
  | w8 =>
    simp only [Width.largest, Width.tl] at h
    simp only [Width.cfg, t8l8v]
    by_cases h1 : ti.tag > 255
    · exact ⟨_, if_pos h1⟩
    by_cases h2 : n > 255
    · exact ⟨.EMSGSIZE, by rw [if_neg h1, if_pos h2]⟩
    exact ⟨.ENOSPC, by rw [if_neg h1, if_neg h2, if_pos (by omega)]⟩
  | w16 =>
    simp only [Width.largest, Width.tl] at h
    simp only [Width.cfg, t16l16v]
    by_cases h1 : ti.tag > 65535
    · exact ⟨_, if_pos h1⟩
    by_cases h2 : n > 65535
    · exact ⟨.EMSGSIZE, by rw [if_neg h1, if_pos h2]⟩
    exact ⟨.ENOSPC, by rw [if_neg h1, if_neg h2, if_pos (by omega)]⟩

/-! ### Pages -/

/-- Where the last TL of a page is, if the page is written behind `n` octets. -/
def pagePut (w : Width) (n : Nat) (p : Page) : Put :=
  match p.ies with
  | [] => {}
  | (t, _, _) :: ies =>
    { last := some (t, n + (Page.octets w ⟨p.lead, ies⟩).length, n + (Page.octets w ⟨p.lead, ies⟩).length + w.tl) }

theorem Spec.Page.octets_cons (w : Width) (lead : List UInt8) (x : TagInst × Nat × List UInt8) (ies) :
    Page.octets w ⟨lead, x :: ies⟩ = Page.octets w ⟨lead, ies⟩ ++ w.ieOctets x := by
  simp [Page.octets]

/-- Tags that fit the field. -/
def Spec.Page.TagsOk (w : Width) (p : Page) : Prop := ∀ x ∈ p.ies, x.1.tag ≤ w.largest

theorem Spec.Page.octets_append (w : Width) (p : Page) (o : List UInt8) : (p.append o).octets w = p.octets w ++ o := by
  obtain ⟨lead, ies⟩ := p
  cases ies with
  | nil => simp [Page.append, Page.octets]
  | cons x ies =>
    obtain ⟨t, n, c⟩ := x
    simp only [Page.append, Page.octets_cons, Width.ieOctets, List.append_assoc]

theorem pagePut_append (w : Width) (n : Nat) (p : Page) (o : List UInt8) : pagePut w n (p.append o) = pagePut w n p := by
  obtain ⟨lead, ies⟩ := p
  cases ies with
  | nil => rfl
  | cons x ies => rfl

theorem Spec.Page.TagsOk.append {w : Width} {p : Page} (h : p.TagsOk w) (o : List UInt8) : (p.append o).TagsOk w := by
  obtain ⟨lead, ies⟩ := p
  cases ies with
  | nil => exact h
  | cons x ies =>
    intro y hy
    rcases List.mem_cons.1 hy with rfl | hy
    · exact h x (by simp)
    · exact h y (List.mem_cons_of_mem _ hy)

theorem Spec.Page.TagsOk.settle {w : Width} {p : Page} (h : p.TagsOk w) : (p.settle w).TagsOk w := by
  obtain ⟨lead, ies⟩ := p
  cases ies with
  | nil => exact h
  | cons x ies =>
    intro y hy
    rcases List.mem_cons.1 hy with rfl | hy
    · exact h x (by simp)
    · exact h y (List.mem_cons_of_mem _ hy)

theorem Spec.Page.settle_length (w : Width) (p : Page) : ((p.settle w).octets w).length = (p.octets w).length := by
  obtain ⟨lead, ies⟩ := p
  cases ies with
  | nil => rfl
  | cons x ies =>
    obtain ⟨t, n, c⟩ := x
    simp only [Page.settle, Page.octets_cons, ieOctets_eq, List.length_append, hdr_length]

/-- osmo_gtlv_put_tli(), of which the return value is ignored. -/
theorem put_begin (w : Width) (base : List UInt8) (cap : Nat) (p : Page) (t : TagInst) (h : p.TagsOk w)
    (hc : base.length + (p.octets w).length ≤ cap) :
    ignoreErr (putTli w.cfg (pagePut w base.length p) ⟨cap, base ++ p.octets w⟩ t 0) (pagePut w base.length p)
        ⟨cap, base ++ p.octets w⟩ =
      (pagePut w base.length (p.begin w (cap - base.length) t), ⟨cap, base ++ (p.begin w (cap - base.length) t).octets w⟩) ∧
    (p.begin w (cap - base.length) t).TagsOk w ∧
    base.length + ((p.begin w (cap - base.length) t).octets w).length ≤ cap := by
  have htl : 0 < w.tl := by cases w <;> decide
  by_cases hb : t.tag ≤ w.largest ∧ (p.octets w).length + w.tl ≤ cap - base.length
  · have hs := storeTl_ok w (Msgb.tailroom ⟨cap, base ++ p.octets w⟩) t 0 hb.1 (Nat.zero_le _) (by
      simp only [Msgb.tailroom, List.length_append]; omega)
    simp only [Page.begin, if_pos hb, putTli, hs, ignoreErr]
    refine ⟨?_, ?_, ?_⟩
    · refine Prod.ext ?_ ?_
      · simp only [pagePut, List.length_append, hdr_length]
      · simp only [Page.octets_cons, ieOctets_eq, List.append_nil, List.append_assoc]
    · intro x hx
      rcases List.mem_cons.1 hx with rfl | hx
      · exact hb.1
      · exact h x hx
    · simp only [Page.octets_cons, ieOctets_eq, List.append_nil, List.length_append, hdr_length]
      have : (Page.octets w ⟨p.lead, p.ies⟩).length = (p.octets w).length := rfl
      omega
  · obtain ⟨e, hs⟩ := storeTl_fails w (Msgb.tailroom ⟨cap, base ++ p.octets w⟩) t 0 (by
      simp only [Msgb.tailroom, List.length_append]; omega)
    simp only [Page.begin, if_neg hb, putTli, hs, ignoreErr]
    exact ⟨trivial, h, hc⟩

/-- osmo_gtlv_put_update_tl(), of which the return value is ignored. -/
theorem put_settle (w : Width) (base : List UInt8) (cap : Nat) (p : Page) (h : p.TagsOk w) :
    ignoreErr (putUpdateTl w.cfg (pagePut w base.length p) ⟨cap, base ++ p.octets w⟩) (pagePut w base.length p)
        ⟨cap, base ++ p.octets w⟩ =
      (pagePut w base.length (p.settle w), ⟨cap, base ++ (p.settle w).octets w⟩) := by
  obtain ⟨lead, ies⟩ := p
  cases ies with
  | nil => rfl
  | cons x ies =>
    obtain ⟨t, n, c⟩ := x
    have hlen : (base ++ Page.octets w ⟨lead, (t, n, c) :: ies⟩).length -
        (base.length + (Page.octets w ⟨lead, ies⟩).length + w.tl) = c.length := by
      simp only [Page.octets_cons, ieOctets_eq, List.length_append, hdr_length]; omega
    have hav : base.length + (Page.octets w ⟨lead, ies⟩).length + w.tl - (base.length + (Page.octets w ⟨lead, ies⟩).length) =
        w.tl := by omega
    simp only [pagePut, putUpdateTl, hlen, hav, Page.settle]
    by_cases hc : c.length ≤ w.largest
    · rw [storeTl_ok w w.tl t c.length (h (t, n, c) (by simp)) hc (Nat.le_refl _)]
      simp only [ignoreErr, hdr_length, if_pos hc]
      refine Prod.ext rfl ?_
      simp only [Page.octets_cons, ieOctets_eq]
      have e : base ++ (Page.octets w ⟨lead, ies⟩ ++ (Width.hdr w t n ++ c)) =
          (base ++ Page.octets w ⟨lead, ies⟩) ++ (Width.hdr w t n ++ c) := by simp
      have hA : (base ++ Page.octets w ⟨lead, ies⟩).length = base.length + (Page.octets w ⟨lead, ies⟩).length :=
        List.length_append
      rw [e, ← hA]
      have hd : (base ++ Page.octets w ⟨lead, ies⟩ ++ (Width.hdr w t n ++ c)).drop
          ((base ++ Page.octets w ⟨lead, ies⟩).length + w.tl) = c := by
        generalize base ++ Page.octets w ⟨lead, ies⟩ = x
        rw [show x.length + w.tl = (x ++ Width.hdr w t n).length by simp [hdr_length], ← List.append_assoc, List.drop_left]
      rw [hd, List.take_left]
      simp only [List.append_assoc]
    · obtain ⟨e, hs⟩ := storeTl_fails w w.tl t c.length (by omega)
      simp only [hs, ignoreErr, if_neg hc]

/-! ### Values, members, structs -/

/-- A page that is written behind `base`, as the outcome of encoding. -/
def pageOut (w : Width) (base : List UInt8) (cap : Nat) : Out Page → Out (Put × Msgb) → Prop
  | .ok p, r => r = .ok (pagePut w base.length p, ⟨cap, base ++ p.octets w⟩) ∧ p.TagsOk w ∧ base.length + (p.octets w).length ≤ cap
  | .err e p, r => ∃ q, r = .err e (q, ⟨cap, base ++ p.octets w⟩)
  | .abort, r => r = .abort
  | .ub, r => r = .ub
  | .diverge, r => r = .diverge

/-- At most one, unless repeated. -/
def AtMostOne : Kind → Nat → Prop
  | .multi _ _, _ => True
  | _, n => n ≤ 1

theorem writeValues_spec (w : Width) (base : List UInt8) (cap : Nat) (c : RCoding A) (hw : WritesBehind c) :
    ∀ (vs : List (Val A)) (i : Nat) (p : Page), p.TagsOk w → base.length + (p.octets w).length ≤ cap →
    AtMostOne c.c.kind (i + vs.length) →
    pageOut w base cap (writeValues w (cap - base.length) c i vs p).1
      (encodeValsR w.cfg c vs i (pagePut w base.length p) ⟨cap, base ++ p.octets w⟩).1 ∧
    (writeValues w (cap - base.length) c i vs p).2 =
      (encodeValsR w.cfg c vs i (pagePut w base.length p) ⟨cap, base ++ p.octets w⟩).2 := by
  intro vs
  induction vs with
  | nil => intro i p hp hc _; exact ⟨⟨rfl, hp, hc⟩, rfl⟩
  | cons v vs ih =>
    intro i p hp hc hk
    obtain ⟨b1, b2, b3⟩ := put_begin w base cap p c.c.ti hp hc
    simp only [encodeValsR, b1, writeValues, writeValue]
    have hroom : cap - base.length - ((p.begin w (cap - base.length) c.c.ti).octets w).length =
        cap - (base ++ (p.begin w (cap - base.length) c.c.ti).octets w).length := by
      simp only [List.length_append]; omega
    generalize p.begin w (cap - base.length) c.c.ti = p1 at b2 b3 hroom ⊢
    have hex : c.c.kind.exceeds i = decide (most c.c.kind ≤ i) := by
      cases hkk : c.c.kind <;> simp only [hkk, List.length_cons, AtMostOne] at hk
      · exact (decide_eq_false (by simp only [most]; omega)).symm
      · exact (decide_eq_false (by simp only [most]; omega)).symm
      · rfl
    have hcap : c.c.kind.cap = most c.c.kind := by cases c.c.kind <;> rfl
    rw [hex, hcap]
    by_cases hm : most c.c.kind ≤ i
    · simp only [hm, decide_true, if_true, Wrote.then]
      exact ⟨⟨_, rfl⟩, trivial⟩
    · simp only [hm, decide_false, Bool.false_eq_true, if_false, encodedIn]
      cases he : c.c.enc with
      | none => simp only [Wrote.then]; exact ⟨rfl, trivial⟩
      | some e =>
        obtain ⟨a1, a2⟩ := hw e he v
        have hle : (base ++ p1.octets w).length ≤ cap := by simp only [List.length_append]; omega
        obtain ⟨a3, a4⟩ := a1 ⟨cap, base ++ p1.octets w⟩ hle
        have a2 := a2 ⟨cap, base ++ p1.octets w⟩ hle
        simp only at a2 a3 a4
        rw [← hroom] at a3 a2
        simp only [a2, a3]
        cases hx : e v ⟨cap - base.length - (p1.octets w).length, []⟩ with
        | ok b' =>
          rw [hx] at a3
          simp only [content, behind] at a3
          have hl := a4 _ a3
          simp only [List.length_append] at hl
          simp only [content, behind, Wrote.then, List.append_nil]
          have hq : (⟨cap, base ++ p1.octets w ++ b'.data⟩ : Msgb) = ⟨cap, base ++ (p1.append b'.data).octets w⟩ := by
            rw [Page.octets_append, List.append_assoc]
          rw [hq, ← pagePut_append w base.length p1 b'.data, put_settle w base cap _ (b2.append _)]
          simp only
          have := ih (i + 1) ((p1.append b'.data).settle w) (b2.append _).settle (by
            rw [Page.settle_length, Page.octets_append, List.length_append]; omega) (by
            cases hkk : c.c.kind <;> simp only [hkk, List.length_cons, AtMostOne] at hk ⊢ <;> omega)
          exact ⟨this.1, by rw [this.2]⟩
        | err rc b' =>
          simp only [content, behind, Wrote.then]
          refine ⟨⟨pagePut w base.length p1, ?_⟩, trivial⟩
          simp only [id]
          rw [Page.octets_append, List.append_assoc]
        | abort => simp only [content, behind, Wrote.then]; exact ⟨rfl, trivial⟩
        | ub => simp only [content, behind, Wrote.then]; exact ⟨rfl, trivial⟩
        | diverge => simp only [content, behind, Wrote.then]; exact ⟨rfl, trivial⟩

/-- `writeStruct` for any struct; what is not a C struct is undefined behaviour. -/
def writeAny (w : Width) (room : Nat) : List (RCoding A) → Struct A → Page → Wrote Page
  | [], _, p => (.ok p, [])
  | _ :: _, [], _ => (.ub, [])
  | c :: cs, s :: ss, p =>
    match membVals c.c.kind s with
    | none => (.ub, [])
    | some vs => (writeValues w room c 0 vs p).then (writeAny w room cs ss) id

theorem membVals_length {k : Kind} {s vs : List (Val A)} (h : membVals k s = some vs) :
    AtMostOne k (0 + vs.length) := by
  cases k with
  | multi m n => trivial
  | mand => cases s <;> simp [membVals] at h; subst h; simp [AtMostOne]
  | opt => cases s <;> simp [membVals] at h <;> subst h <;> simp [AtMostOne]

theorem writeAny_spec (w : Width) (base : List UInt8) (cap : Nat) :
    ∀ (cs : List (RCoding A)), (∀ c ∈ cs, WritesBehind c) → ∀ (ss : Struct A) (p : Page), p.TagsOk w →
    base.length + (p.octets w).length ≤ cap →
    pageOut w base cap (writeAny w (cap - base.length) cs ss p).1
      (encodeTableR w.cfg cs ss (pagePut w base.length p) ⟨cap, base ++ p.octets w⟩).1 ∧
    (writeAny w (cap - base.length) cs ss p).2 =
      (encodeTableR w.cfg cs ss (pagePut w base.length p) ⟨cap, base ++ p.octets w⟩).2 := by
  intro cs
  induction cs with
  | nil => intro _ ss p hp hc; cases ss <;> exact ⟨⟨rfl, hp, hc⟩, rfl⟩
  | cons c cs ih =>
    intro hw ss p hp hc
    cases ss with
    | nil => exact ⟨rfl, rfl⟩
    | cons s ss =>
      simp only [encodeTableR, writeAny]
      cases hmv : membVals c.c.kind s with
      | none => exact ⟨rfl, rfl⟩
      | some vs =>
        simp only
        have s1 := writeValues_spec w base cap c (hw c (by simp)) vs 0 p hp hc (membVals_length hmv)
        obtain ⟨s1, s2⟩ := s1
        generalize encodeValsR w.cfg c vs 0 (pagePut w base.length p) ⟨cap, base ++ p.octets w⟩ = r at s1 s2 ⊢
        generalize writeValues w (cap - base.length) c 0 vs p = q at s1 s2 ⊢
        obtain ⟨r, l⟩ := r
        obtain ⟨q, l'⟩ := q
        simp only at s1 s2
        subst s2
        cases q with
        | ok p1 =>
          obtain ⟨rfl, t1, t2⟩ := s1
          obtain ⟨i1, i2⟩ := ih (fun c hc => hw c (List.mem_cons_of_mem _ hc)) ss p1 t1 t2
          simp only [Wrote.then]
          exact ⟨i1, by rw [i2]⟩
        | err e p1 => obtain ⟨x, rfl⟩ := s1; exact ⟨⟨x, rfl⟩, rfl⟩
        | abort => change r = _ at s1; subst s1; exact ⟨rfl, rfl⟩
        | ub => change r = _ at s1; subst s1; exact ⟨rfl, rfl⟩
        | diverge => change r = _ at s1; subst s1; exact ⟨rfl, rfl⟩

theorem writeAny_eq (w : Width) (room : Nat) : ∀ (cs : List (RCoding A)) (ss : Struct A), Members cs ss → ∀ p,
    writeAny w room cs ss p = writeStruct w room cs ss p := by
  intro cs
  induction cs with
  | nil => intro ss _ p; cases ss <;> rfl
  | cons c cs ih =>
    intro ss hm p
    obtain ⟨h1, h2⟩ := hm
    cases ss with
    | nil => simp at h1
    | cons vs ss =>
      have h0 := h2 0 c vs rfl rfl
      have hmv : membVals c.c.kind vs = some vs := by
        cases hk : c.c.kind <;> simp only [hk] at h0
        · obtain ⟨v, rfl⟩ := List.length_eq_one_iff.1 h0; rfl
        · match vs, h0 with
          | [], _ => rfl
          | [v], _ => rfl
          | _ :: _ :: _, h => simp at h
        · rfl
      have hmem : Members cs ss := ⟨by simpa using h1, fun i c' vs' a b => h2 (i + 1) c' vs' (by simpa using a) (by simpa using b)⟩
      simp only [writeAny, writeStruct, hmv]
      congr 1
      funext p
      exact ih ss hmem p

/-- Encoding, for any struct. -/
theorem gtlvsEncodeR_any (w : Width) (cs : List (RCoding A)) (hw : ∀ c ∈ cs, WritesBehind c) (ss : Struct A) (b : Msgb)
    (hb : b.data.length ≤ b.cap) :
    gtlvsEncodeR w.cfg ss b (some cs) =
      (behind b (Page.out w (writeAny w (b.cap - b.data.length) cs ss {}).1), (writeAny w (b.cap - b.data.length) cs ss {}).2) ∧
    ∀ p, (writeAny w (b.cap - b.data.length) cs ss {}).1 = .ok p → b.data.length + (p.octets w).length ≤ b.cap := by
  have e0 : Page.octets w {} = [] := rfl
  obtain ⟨h1, h2⟩ := writeAny_spec w b.data b.cap cs hw ss {} (by intro x hx; simp at hx) (by rw [e0]; simpa using hb)
  rw [e0, List.append_nil] at h1 h2
  have e1 : pagePut w b.data.length {} = {} := rfl
  rw [e1] at h1 h2
  have e2 : (⟨b.cap, b.data⟩ : Msgb) = b := rfl
  rw [e2] at h1 h2
  simp only [gtlvsEncodeR, ← h2]
  generalize (encodeTableR w.cfg cs ss {} b).1 = r at h1 ⊢
  generalize (writeAny w (b.cap - b.data.length) cs ss {}) = q at h1 ⊢
  obtain ⟨q, l⟩ := q
  simp only at h1 ⊢
  cases q with
  | ok p =>
    obtain ⟨rfl, -, h3⟩ := h1
    refine ⟨rfl, ?_⟩
    intro p' hp'
    simp only [Out.ok.injEq] at hp'
    subst hp'
    exact h3
  | err e p => obtain ⟨x, rfl⟩ := h1; exact ⟨rfl, nofun⟩
  | abort => change r = _ at h1; subst h1; exact ⟨rfl, nofun⟩
  | ub => change r = _ at h1; subst h1; exact ⟨rfl, nofun⟩
  | diverge => change r = _ at h1; subst h1; exact ⟨rfl, nofun⟩

theorem WritesBehind.nested (ti : TagInst) (kind : Kind) (w : Width) (ordered : Bool) (inner : List (RCoding A))
    (hw : ∀ c ∈ inner, WritesBehind c) :
    WritesBehind (nestedRCoding ti kind w.cfg ordered inner) := by
  have hu : ∀ s b, (gtlvsEncodeR w.cfg s b (some inner)).1 = gtlvsEncode w.cfg s b (some (unreported inner)) :=
    fun s b => gtlvsEncodeR_fst w.cfg s b (some inner)
  intro e he v
  simp only [nestedRCoding, nestedCoding, Option.some.injEq] at he
  subst he
  cases v with
  | leaf a => exact ⟨AddsTo.ub, fun b hb => rfl⟩
  | node s =>
    refine ⟨?_, ?_⟩
    · intro b hb
      simp only [← hu]
      obtain ⟨h1, h2⟩ := gtlvsEncodeR_any w inner hw s b hb
      obtain ⟨h3, h4⟩ := gtlvsEncodeR_any w inner hw s { cap := b.cap - b.data.length, data := [] } (by simp)
      simp only [List.length_nil, Nat.sub_zero] at h3 h4
      rw [h1, h3]
      refine ⟨by simp only; rw [content_behind _ _ rfl], ?_⟩
      intro b' hb'
      simp only at hb'
      cases hq : (writeAny w (b.cap - b.data.length) inner s {}).1 with
      | ok p =>
        rw [hq] at hb'
        simp only [Page.out, behind, Out.ok.injEq] at hb'
        subst hb'
        simpa using h2 p hq
      | _ => rw [hq] at hb'; simp [Page.out, behind] at hb'
    · intro b hb
      obtain ⟨h1, h2⟩ := gtlvsEncodeR_any w inner hw s b hb
      obtain ⟨h3, h4⟩ := gtlvsEncodeR_any w inner hw s { cap := b.cap - b.data.length, data := [] } (by simp)
      simp only [List.length_nil, Nat.sub_zero] at h3
      simp only [nestedRCoding]
      rw [h1, h3]

end Verif
