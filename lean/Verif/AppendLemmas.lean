/-
Encoding only ever appends to a msgb, whether it succeeds or fails.
-/
import Verif.MsgLemmas

namespace Verif
open Spec Props

variable {A : Type}

/-- `b'` is `b` with more octets at the end. -/
def Grown (b b' : Msgb) : Prop :=
  b'.cap = b.cap ∧ (∃ x, b'.data = b.data ++ x) ∧ (b.data.length ≤ b.cap → b'.data.length ≤ b.cap)

theorem Grown.refl (b : Msgb) : Grown b b := ⟨rfl, ⟨[], by simp⟩, id⟩

theorem Grown.trans {a b c : Msgb} (h : Grown a b) (h' : Grown b c) : Grown a c := by
  obtain ⟨h1, ⟨x, h2⟩, h3⟩ := h
  obtain ⟨k1, ⟨y, k2⟩, k3⟩ := h'
  refine ⟨k1.trans h1, ⟨x ++ y, by rw [k2, h2]; simp⟩, fun h => ?_⟩
  have := k3 (by rw [h1]; exact h3 h)
  omega

/-- A function that only appends. -/
def Grows (f : Msgb → Out Msgb) : Prop :=
  ∀ b, (∀ b', f b = .ok b' → Grown b b') ∧ (∀ e b', f b = .err e b' → Grown b b')

theorem Grows.put (o : List UInt8) : Grows fun b => b.put o := by
  intro b
  show (∀ b', b.put o = .ok b' → _) ∧ (∀ e b', b.put o = .err e b' → _)
  unfold Msgb.put
  split
  · refine ⟨?_, by simp⟩
    intro b' h
    simp only [Out.ok.injEq] at h
    subst h
    exact ⟨rfl, ⟨o, rfl⟩, fun _ => by simpa using by assumption⟩
  · simp

theorem Grows.ok : Grows fun b => .ok b := by
  intro b
  refine ⟨?_, by simp⟩
  intro b' h
  simp only [Out.ok.injEq] at h
  subst h
  exact .refl _

theorem Grows.err (e : Errno) : Grows fun b => .err e b := by
  intro b
  refine ⟨by simp, ?_⟩
  intro e' b' h
  simp only [Out.err.injEq] at h
  rw [← h.2]
  exact .refl _

theorem Grows.bind {f g : Msgb → Out Msgb} (hf : Grows f) (hg : Grows g) : Grows fun b => (f b).bind g := by
  intro b
  show (∀ b', (f b).bind g = .ok b' → _) ∧ (∀ e b', (f b).bind g = .err e b' → _)
  cases hx : f b with
  | ok b1 =>
    have h1 := (hf b).1 b1 hx
    simp only [Out.bind]
    exact ⟨fun b' h => h1.trans ((hg b1).1 b' h), fun e b' h => h1.trans ((hg b1).2 e b' h)⟩
  | err e b1 =>
    have h1 := (hf b).2 e b1 hx
    simp only [Out.bind]
    refine ⟨by simp, ?_⟩
    intro e' b' h
    simp only [Out.err.injEq] at h
    rw [← h.2]; exact h1
  | _ => simp [Out.bind]

theorem Grows.ite {f g : Msgb → Out Msgb} (p : Prop) [Decidable p] (hf : Grows f) (hg : Grows g) :
    Grows fun b => if p then f b else g b := by
  split
  · exact hf
  · exact hg

theorem Grows.num (k v : Nat) : Grows fun b => b.num k v := Grows.put _
theorem Grows.opt (p : Bool) (k v : Nat) : Grows fun b => b.opt p k v := Grows.ite _ (Grows.num k v) Grows.ok
theorem Grows.addr (p : Bool) (f : Sockaddr → Bool) (l : Nat) (a : Sockaddr) : Grows fun b => b.addr p f l a :=
  Grows.ite _ (Grows.ite _ (Grows.put _) (Grows.err _)) Grows.ok
theorem Grows.agree (x y : Bool) (o : List UInt8) : Grows fun b => b.agree x y o :=
  Grows.ite _ (Grows.err _) (Grows.ite _ (Grows.put _) Grows.ok)

theorem Grows.name (s : List UInt8) : Grows fun b => encName s b := by
  intro b
  show (∀ b', encName s b = .ok b' → _) ∧ (∀ e b', encName s b = .err e b' → _)
  unfold encName
  split
  · exact Grows.err _ b
  · exact Grows.put _ b

theorem Grows.ub : Grows fun _ => .ub := by intro b; simp

theorem ieEnc_grows (v : IeVal) : Grows (ieEnc v) := by
  unfold ieEnc
  cases v with
  | cause v => exact Grows.num _ _
  | offendingIe v => exact Grows.num _ _
  | u8 v => exact Grows.num _ _
  | u16 v => exact Grows.num _ _
  | u32 v => exact Grows.num _ _
  | ifaceType v => exact Grows.num _ _
  | sourceIface v => exact Grows.num _ _
  | destIface v => exact Grows.num _ _
  | nodeId v =>
    cases v with
    | v4 a => exact Grows.bind (Grows.num _ _) (Grows.put _)
    | v6 a => exact Grows.bind (Grows.num _ _) (Grows.put _)
    | fqdn s => exact Grows.bind (Grows.num _ _) (Grows.name _)
    | other t => exact Grows.bind (Grows.num _ _) (Grows.err _)
  | upFeatures bits => exact Grows.put _
  | cpFeatures bits => exact Grows.put _
  | fSeid v =>
    exact Grows.bind (Grows.num _ _) (Grows.bind (Grows.num _ _) (Grows.bind (Grows.addr _ _ _ _) (Grows.addr _ _ _ _)))
  | fTeid v =>
    cases v with
    | fixed t ip =>
      exact Grows.bind (Grows.num _ _) (Grows.bind (Grows.num _ _) (Grows.bind (Grows.addr _ _ _ _) (Grows.addr _ _ _ _)))
    | choose a b c d => exact Grows.bind (Grows.num _ _) (Grows.opt _ _ _)
  | applyAction bits => exact Grows.put _
  | networkInst s => exact Grows.name _
  | ohc v =>
    simp only [encOhc]
    refine Grows.bind (Grows.put _) ?_
    cases ohcParts v.desc with
    | ok parts =>
      exact Grows.bind (Grows.agree _ _ _) (Grows.bind (Grows.agree _ _ _) (Grows.bind (Grows.agree _ _ _)
        (Grows.bind (Grows.agree _ _ _) (Grows.bind (Grows.agree _ _ _) (Grows.agree _ _ _)))))
    | _ => exact Grows.ub
  | apr s => exact Grows.ite _ (Grows.put _) Grows.ok
  | ohr v => exact Grows.bind (Grows.num _ _) (Grows.opt _ _ _)
  | ueIp v =>
    exact Grows.bind (Grows.num _ _) (Grows.bind (Grows.addr _ _ _ _) (Grows.bind (Grows.addr _ _ _ _)
      (Grows.bind (Grows.opt _ _ _) (Grows.opt _ _ _))))

/-! ### Tables -/

/-- The last TL is behind the first `n` octets, and inside the msgb. -/
def PutIn (cfg : Cfg) (n : Nat) (p : Put) (b : Msgb) : Prop :=
  ∀ ti tl v, p.last = some (ti, tl, v) → n ≤ tl ∧ v = tl + cfg.tlMin ∧ v ≤ b.data.length

theorem PutIn.grown {cfg : Cfg} {n : Nat} {p : Put} {b b' : Msgb} (h : PutIn cfg n p b) (g : Grown b b') :
    PutIn cfg n p b' := by
  intro ti tl v hl
  obtain ⟨h1, h2, h3⟩ := h ti tl v hl
  obtain ⟨x, hx⟩ := g.2.1
  exact ⟨h1, h2, by rw [hx]; simp; omega⟩

section
variable {cfg : Cfg} {hdr : TagInst → Nat → List UInt8} {dom : TagInst → Nat → Prop}

theorem ignorePut_grown (h : cfg.Lawful hdr dom) {n : Nat} (p : Put) (b : Msgb) (ti : TagInst)
    (hp : PutIn cfg n p b) (hn : n ≤ b.data.length) :
    ∃ p' b', ignoreErr (putTli cfg p b ti 0) p b = (p', b') ∧ PutIn cfg n p' b' ∧ Grown b b' := by
  unfold putTli
  cases hs : cfg.storeTl b.tailroom ti 0 with
  | error e => exact ⟨p, b, rfl, hp, .refl _⟩
  | ok tl =>
    obtain ⟨e, ha⟩ := h.store_inv _ _ _ _ hs
    have := h.tlMin_pos
    refine ⟨_, _, rfl, ?_, rfl, ⟨tl, rfl⟩, ?_⟩
    · intro ti tl' v hl
      simp only [Option.some.injEq, Prod.mk.injEq] at hl
      obtain ⟨_, rfl, rfl⟩ := hl
      rw [e, h.hdr_len]
      exact ⟨hn, rfl, by simp [h.hdr_len]⟩
    · intro _
      simp only [List.length_append]
      rw [e, h.hdr_len]
      unfold Msgb.tailroom at ha
      omega

/-- `d0` are the octets in front. -/
theorem ignoreUpdate_grown (h : cfg.Lawful hdr dom) {b0 : Msgb} (p : Put) (b : Msgb)
    (hp : PutIn cfg b0.data.length p b) (hg : Grown b0 b) :
    ∃ p' b', ignoreErr (putUpdateTl cfg p b) p b = (p', b') ∧ PutIn cfg b0.data.length p' b' ∧ Grown b0 b' := by
  unfold putUpdateTl
  cases hl : p.last with
  | none => exact ⟨p, b, rfl, hp, hg⟩
  | some x =>
    obtain ⟨ti, tl, v⟩ := x
    obtain ⟨h0, h1, h2⟩ := hp ti tl v hl
    simp only
    cases hs : cfg.storeTl (v - tl) ti (b.data.length - v) with
    | error e => exact ⟨p, b, rfl, hp, hg⟩
    | ok o =>
      obtain ⟨e, _⟩ := h.store_inv _ _ _ _ hs
      have hol : o.length = cfg.tlMin := by rw [e, h.hdr_len]
      have hlen : (b.data.take tl ++ o ++ b.data.drop (tl + o.length)).length = b.data.length := by
        simp only [List.length_append, List.length_take, List.length_drop]; omega
      obtain ⟨g1, ⟨x, g2⟩, g3⟩ := hg
      refine ⟨_, _, rfl, ?_, g1, ?_, ?_⟩
      · intro ti' tl' v' hl'
        simp only [Option.some.injEq, Prod.mk.injEq] at hl'
        obtain ⟨_, rfl, rfl⟩ := hl'
        simp only
        rw [hlen, hol]
        exact ⟨h0, rfl, by omega⟩
      · refine ⟨x.take (tl - b0.data.length) ++ o ++ b.data.drop (tl + o.length), ?_⟩
        simp only
        have : b.data.take tl = b0.data ++ x.take (tl - b0.data.length) := by
          rw [g2, List.take_append]
          rw [List.take_of_length_le h0]
        rw [this]; simp
      · intro hc
        simp only
        rw [hlen]; exact g3 hc

theorem encodeVals_grown (h : cfg.Lawful hdr dom) (c : Coding A) (hc : ∀ enc, c.enc = some enc → ∀ v, Grows (enc v))
    (vs : List (Val A)) : ∀ (i : Nat) (p : Put) (b0 b : Msgb), PutIn cfg b0.data.length p b → Grown b0 b →
    (∀ p' b', encodeVals cfg c vs i p b = .ok (p', b') → PutIn cfg b0.data.length p' b' ∧ Grown b0 b') ∧
    (∀ e p' b', encodeVals cfg c vs i p b = .err e (p', b') → Grown b0 b') := by
  induction vs with
  | nil =>
    intro i p b0 b hp hg
    refine ⟨?_, by simp [encodeVals]⟩
    intro p' b' he
    simp only [encodeVals, Out.ok.injEq, Prod.mk.injEq] at he
    obtain ⟨rfl, rfl⟩ := he
    exact ⟨hp, hg⟩
  | cons v vs ih =>
    intro i p b0 b hp hg
    have hn : b0.data.length ≤ b.data.length := by
      obtain ⟨x, hx⟩ := hg.2.1; rw [hx]; simp
    obtain ⟨p1, b1, k1, k2, k3⟩ := ignorePut_grown h p b c.ti hp hn
    have hg1 := hg.trans k3
    simp only [encodeVals, k1]
    split
    · refine ⟨by simp, ?_⟩
      intro e p' b' he
      simp only [Out.err.injEq, Prod.mk.injEq] at he
      rw [← he.2.2]; exact hg1
    · cases hen : c.enc with
      | none => simp
      | some enc =>
        have hgr := hc enc hen v b1
        simp only
        cases henc : enc v b1 with
        | ok b2 =>
          have hg2 := hgr.1 b2 henc
          obtain ⟨p3, b3, m1, m2, m3⟩ := ignoreUpdate_grown h p1 b2 (k2.grown hg2) (hg1.trans hg2)
          simp only [m1]
          exact ih (i + 1) p3 b0 b3 m2 m3
        | err e b2 =>
          have hg2 := hgr.2 e b2 henc
          simp only
          refine ⟨by simp, ?_⟩
          intro e' p' b' he
          simp only [Out.err.injEq, Prod.mk.injEq] at he
          rw [← he.2.2]; exact hg1.trans hg2
        | _ => simp

theorem encodeTable_grown (h : cfg.Lawful hdr dom) (cs : List (Coding A))
    (hc : ∀ c ∈ cs, ∀ enc, c.enc = some enc → ∀ v, Grows (enc v)) :
    ∀ (ss : Struct A) (p : Put) (b0 b : Msgb), PutIn cfg b0.data.length p b → Grown b0 b →
    (∀ p' b', encodeTable cfg cs ss p b = .ok (p', b') → Grown b0 b') ∧
    (∀ e p' b', encodeTable cfg cs ss p b = .err e (p', b') → Grown b0 b') := by
  induction cs with
  | nil =>
    intro ss p b0 b hp hg
    refine ⟨?_, by simp [encodeTable]⟩
    intro p' b' he
    simp only [encodeTable, Out.ok.injEq, Prod.mk.injEq] at he
    rw [← he.2]; exact hg
  | cons c cs ih =>
    intro ss p b0 b hp hg
    cases ss with
    | nil => simp [encodeTable]
    | cons s ss =>
      simp only [encodeTable]
      cases membVals c.kind s with
      | none => simp
      | some vs =>
        simp only
        obtain ⟨k1, k2⟩ := encodeVals_grown h c (hc c (by simp)) vs 0 p b0 b hp hg
        cases hv : encodeVals cfg c vs 0 p b with
        | ok q =>
          obtain ⟨p1, b1⟩ := q
          obtain ⟨m1, m2⟩ := k1 p1 b1 hv
          exact ih (fun c hcc => hc c (by simp [hcc])) ss p1 b0 b1 m1 m2
        | err e q =>
          obtain ⟨p1, b1⟩ := q
          refine ⟨by simp, ?_⟩
          intro e' p' b' he
          simp only [Out.err.injEq] at he
          obtain ⟨_, he⟩ := he
          simp only [Prod.mk.injEq] at he
          rw [← he.2]; exact k2 e p1 b1 hv
        | _ => simp

theorem gtlvsEncode_grows (h : cfg.Lawful hdr dom) (cs : List (Coding A))
    (hc : ∀ c ∈ cs, ∀ enc, c.enc = some enc → ∀ v, Grows (enc v)) (ss : Struct A) :
    Grows fun b => gtlvsEncode cfg ss b (some cs) := by
  intro b
  obtain ⟨k1, k2⟩ := encodeTable_grown h cs hc ss {} b b (by intro _ _ _ h; simp at h) (.refl _)
  simp only [gtlvsEncode]
  cases ht : encodeTable cfg cs ss {} b with
  | ok q =>
    refine ⟨?_, by simp [dropPut]⟩
    intro b' hb
    simp only [dropPut, Out.ok.injEq] at hb
    rw [← hb]; exact k1 q.1 q.2 ht
  | err e q =>
    refine ⟨by simp [dropPut], ?_⟩
    intro e' b' hb
    simp only [dropPut, Out.err.injEq] at hb
    rw [← hb.2]; exact k2 e q.1 q.2 ht
  | _ => simp [dropPut]

end

mutual
theorem Ty.enc_grows (ty : Ty) (tag : Nat) (kind : Kind) :
    ∀ enc, (ty.coding tag kind).enc = some enc → ∀ v, Grows (enc v) := by
  match ty with
  | .ie k =>
    intro enc he v
    simp only [Ty.coding, ieCoding, leafCoding, Option.some.injEq] at he
    subst he
    cases v with
    | leaf a => exact Grows.ite _ (ieEnc_grows a) Grows.ub
    | node s => exact Grows.ub
  | .group f =>
    intro enc he v
    simp only [Ty.coding, nestedCoding, Option.some.injEq] at he
    subst he
    cases v with
    | leaf a => exact Grows.ub
    | node s => exact gtlvsEncode_grows t16l16v_lawful f.codings (Fields.enc_grows f) s
theorem Fields.enc_grows (f : Fields) :
    ∀ c ∈ f.codings, ∀ enc, c.enc = some enc → ∀ v, Grows (enc v) := by
  match f with
  | .nil => simp [Fields.codings]
  | .cons t k ty f =>
    intro c hc
    simp only [Fields.codings, List.mem_cons] at hc
    rcases hc with rfl | hc
    · exact Ty.enc_grows ty t k
    · exact Fields.enc_grows f c hc
end

theorem encTlv_grows (h : Hdr) (ies : Struct IeVal) : Grows (encTlv h ies) := by
  unfold encTlv msgCoding
  cases msgFields h.type with
  | none => exact Grows.err _
  | some f => exact gtlvsEncode_grows t16l16v_lawful f.codings f.enc_grows ies

end Verif
