/-
C77, C78 for PFCP, and counterexamples.
-/
import Verif.PropsGen
import Verif.MsgLemmas

namespace Verif
open Spec

deriving instance DecidableEq for Kind
deriving instance DecidableEq for Ty, Fields

/-! ### Checks -/

/-- Decide `Short`. -/
def shortB (c : GCfg) (ms : List GMsg) : Bool :=
  (occs ms).all (fun x => decide ((nameOf x.1 x.2).length ≤ 127) &&
    (decide (x.2.decodedType ≠ none) || decide ((typeOf c x.1 x.2).length ≤ 254)) &&
    decide ((typeOf c x.1 x.2).length ≤ 255) && decide ((x.2.decEnc.getD (nameOf x.1 x.2)).length ≤ 255)) &&
  ms.all fun m => decide (m.name ≠ []) && decide (m.name.length ≤ 127)

theorem short_of {c ms} (h : shortB c ms = true) : Short c ms := by
  simp only [shortB, Bool.and_eq_true, List.all_eq_true, decide_eq_true_eq, Bool.or_eq_true] at h
  obtain ⟨h1, h2⟩ := h
  refine ⟨fun o i ho => (h1 _ ho).1.1.1, fun m hm => h2 m hm, ?_, fun o i ho => (h1 _ ho).1.2, fun o i ho => (h1 _ ho).2⟩
  intro o i ho hn
  rcases (h1 _ ho).1.1.2 with h | h
  · exact absurd hn h
  · exact h

/-- Decide `Identified`. -/
def identifiedB (ms : List GMsg) : Bool :=
  (groups ms).all fun x => (groups ms).all fun y =>
    decide (x.2.1.addr ≠ y.2.1.addr) || (decide (x.2.1 = y.2.1) && decide (x.2.2 = y.2.2))

theorem identified_of {ms} (h : identifiedB ms = true) : Identified ms := by
  simp only [identifiedB, Bool.and_eq_true, List.all_eq_true, decide_eq_true_eq, Bool.or_eq_true] at h
  intro o i n o' i' n' h1 h2 ha
  rcases h _ h1 _ h2 with h | h
  · exact absurd ha h
  · exact h

/-- Decide `Consistent`. -/
def consistentB (c : GCfg) (ms : List GMsg) : Bool :=
  (groups ms).all fun x => (groups ms).all fun y =>
    decide (typeOf c x.1 x.2.1 ≠ typeOf c y.1 y.2.1) || decide (x.2.2 = y.2.2)

theorem consistent_of {c ms} (h : consistentB c ms = true) : Consistent c ms := by
  simp only [consistentB, List.all_eq_true, decide_eq_true_eq, Bool.or_eq_true] at h
  intro o i n o' i' n' h1 h2 ha
  rcases h _ h1 _ h2 with h | h
  · exact absurd ha h
  · exact h

/-! ### PFCP -/

namespace Pfcp

/-- How the codec treats an entry (gtlv_dec_enc.h): with a count, with a presence flag, or mandatory. PFCP has no
instances, and nothing has both. -/
def kindOf (h : CHead) : Option Kind :=
  if h.inst.isSome then none
  else if h.multi ≠ 0 then if h.presence then none else some (.multi h.multi h.mandatory)
  else some (if h.presence then .opt else .mand)

/-- What the names in a table stand for: the values of tags, and the functions. -/
def fields : Tab → Option Fields
  | .nil => some .nil
  | .func h s r =>
    (value h.tag).bind fun t => (kindOf h).bind fun k => (function s).bind fun f => (fields r).bind fun r =>
    some (.cons t k (.ie f) r)
  | .nested h n r =>
    (value h.tag).bind fun t => (kindOf h).bind fun k => (fields n).bind fun n => (fields r).bind fun r =>
    some (.cons t k (.group n) r)

/-- The value of the constant for a message. -/
def msgValue (m : GMsg) : Option Nat := value (cfg.messageTypePrefix ++ capitals m.name)

theorem short : Short cfg msgDefs := short_of (by decide +kernel)
theorem identified : Identified msgDefs := identified_of (by decide +kernel)
theorem consistent : Consistent cfg msgDefs := consistent_of (by decide +kernel)

end Pfcp

namespace Props

/-- The types of messages in `msgFields`. -/
def msgTypes : List Nat := [1, 2, 5, 6, 9, 10, 50, 51, 52, 53, 54, 55]

theorem msgFields_none {t : Nat} (h : t ∉ msgTypes) : msgFields t = none := by
  unfold msgFields
  split <;> first | rfl | (exfalso; exact h (by decide))

/-- C77: gtlv_gen.c makes of gen__pfcp_ies_auto.c the coding tables of the model of libosmo-pfcp (`msgFields`), with the
values of tags and the functions that the names in it stand for: for all message types. -/
theorem C77_pfcp : ∃ g env, writeC Pfcp.cfg Pfcp.msgDefs = some g ∧ compile g.arrays [] = some env ∧
    ∀ type, (g.getMsgCoding Pfcp.value env type).bind Pfcp.fields = msgFields type := by
  have hs := Pfcp.short
  have hi := Pfcp.identified
  obtain ⟨g, hg⟩ : ∃ g, writeC Pfcp.cfg Pfcp.msgDefs = some g := Option.isSome_iff_exists.1 (by decide +kernel)
  have hcl : ∀ m ∈ Pfcp.msgDefs, ∀ o i n, (o, i, n) ∈ groups Pfcp.msgDefs → nameOf o i ≠ lit "msg_" ++ m.name := by
    have : (Pfcp.msgDefs.all fun m => (groups Pfcp.msgDefs).all fun x => decide (nameOf x.1 x.2.1 ≠ lit "msg_" ++ m.name)) = true := by
      decide +kernel
    simp only [List.all_eq_true, decide_eq_true_eq] at this
    intro m hm o i n hx
    exact this m hm _ hx
  obtain ⟨env, hc⟩ := C77_compiles hi hs hg (by decide +kernel) hcl
  refine ⟨g, env, hg, hc, ?_⟩
  intro type
  obtain ⟨h1, h2⟩ := C77_get_msg_coding hi hs hg hc Pfcp.value type
  -- every message: its type, and its fields
  have hall : (Pfcp.msgDefs.all fun m => decide ((Pfcp.msgValue m).bind msgFields = Pfcp.fields (msgTable Pfcp.cfg m)) &&
      (Pfcp.fields (msgTable Pfcp.cfg m)).isSome) = true := by decide +kernel
  have huniq : (Pfcp.msgDefs.map Pfcp.msgValue).Nodup := by decide +kernel
  have hhit : ∀ t ∈ msgTypes, some t ∈ Pfcp.msgDefs.map Pfcp.msgValue := by decide +kernel
  simp only [List.all_eq_true, Bool.and_eq_true, decide_eq_true_eq] at hall
  by_cases hex : ∃ m ∈ Pfcp.msgDefs, Pfcp.msgValue m = some type
  · obtain ⟨m, hm, hv⟩ := hex
    rw [h1 m hm hv, Option.bind_some, ← (hall m hm).1, hv, Option.bind_some]
    intro m' hm' hv'
    have inj : ∀ l : List GMsg, (l.map Pfcp.msgValue).Nodup → m ∈ l → m' ∈ l → m' = m := by
      intro l
      induction l with
      | nil => intro _ h; cases h
      | cons x l ih =>
        intro hn ha hb
        rw [List.map_cons, List.nodup_cons] at hn
        have e : Pfcp.msgValue m' = Pfcp.msgValue m := hv'.trans hv.symm
        rcases List.mem_cons.1 ha with ha' | ha' <;> rcases List.mem_cons.1 hb with hb' | hb'
        · rw [ha', hb']
        · exact absurd (List.mem_map.2 ⟨m', hb', by rw [e, ha']⟩) hn.1
        · exact absurd (List.mem_map.2 ⟨m, ha', by rw [← e, hb']⟩) hn.1
        · exact ih hn.2 ha' hb'
    exact inj _ huniq hm hm'
  · have hn : ∀ m ∈ Pfcp.msgDefs, Pfcp.msgValue m ≠ some type := fun m hm hv => hex ⟨m, hm, hv⟩
    rw [h2 hn]
    have : type ∉ msgTypes := by
      intro ht
      obtain ⟨m, hm, hv⟩ := List.mem_map.1 (hhit type ht)
      exact hn m hm hv
    rw [msgFields_none this]
    rfl

/-- C78: the structs of libosmo-pfcp have room for whatever its tables make the decoder write. -/
theorem C78_pfcp : ∃ ss env, writeH Pfcp.cfg Pfcp.msgDefs = some ss ∧ compileH ss [] = some env ∧
    ∀ m ∈ Pfcp.msgDefs, Room Pfcp.cfg env (msgTable Pfcp.cfg m) := by
  obtain ⟨ss, hw⟩ : ∃ ss, writeH Pfcp.cfg Pfcp.msgDefs = some ss := Option.isSome_iff_exists.1 (by decide +kernel)
  have hc : ((writeH Pfcp.cfg Pfcp.msgDefs).bind fun ss => compileH ss []).isSome = true := by decide +kernel
  rw [hw, Option.bind_some] at hc
  obtain ⟨env, hc⟩ := Option.isSome_iff_exists.1 hc
  exact ⟨ss, env, hw, hc, C78_room_partial Pfcp.short Pfcp.consistent hw hc⟩

/-! ### Counterexamples -/

/-- A protocol. -/
def exCfg : GCfg :=
  { protoName := lit "p", messageTypePrefix := lit "P_MSGT_", tagPrefix := lit "P_IEI_", decodedTypePrefix := lit "struct p_ie_" }
/-- An IE defined by the user. -/
def exLeaf : GInfo := { addr := 0 }
/-- A message with two IEs with nested IEs, of the same type: one contains up to 4 `x`, the other up to 32. -/
def exShared : List GMsg := [
  { name := lit "m"
    ies := .group { name := lit "a" } { addr := 1, decodedType := some (lit "struct s") } (.ie { name := lit "x", multi := 4 } exLeaf .nil) <|
      .group { name := lit "b" } { addr := 2, decodedType := some (lit "struct s") } (.ie { name := lit "x", multi := 32 } exLeaf .nil) .nil }]

/-- C78 is not true of all definitions: if two IEs have the same `decoded_type` but other nested IEs, the generator writes
the struct for the first one and uses it for both, without an error. Here, the table of `b` makes the decoder write up to
32 elements to an array of 4. -/
theorem C78_counterexample : Short exCfg exShared ∧ Identified exShared ∧
    ∃ g tabs ss env, writeC exCfg exShared = some g ∧ compile g.arrays [] = some tabs ∧
      writeH exCfg exShared = some ss ∧ compileH ss [] = some env ∧
      (∀ m ∈ exShared, tabs.get (lit "ies_in_msg_" ++ m.name) = some (msgTable exCfg m)) ∧
      ∃ h suffix, tabs.get (lit "ies_in_b") = some (.func h suffix .nil) ∧ h.multi = 32 ∧
        structFor exCfg env h = some [⟨false, lit "struct p_ie_x", h.memb, 4⟩] ∧
      ¬ ∀ m ∈ exShared, Room exCfg env (msgTable exCfg m) := by
  have hs : Short exCfg exShared := short_of (by decide +kernel)
  have hi : Identified exShared := identified_of (by decide +kernel)
  refine ⟨hs, hi, ?_⟩
  obtain ⟨g, hg⟩ : ∃ g, writeC exCfg exShared = some g := Option.isSome_iff_exists.1 (by decide +kernel)
  have hc : ((writeC exCfg exShared).bind fun g => compile g.arrays []).isSome = true := by decide +kernel
  rw [hg, Option.bind_some] at hc
  obtain ⟨tabs, hc⟩ := Option.isSome_iff_exists.1 hc
  have ht := C77_tables hi hs hg hc
  have hb : ((writeC exCfg exShared).bind fun g => compile g.arrays []).bind (fun t => t.get (lit "ies_in_b")) =
      some (.func ⟨lit "P_IEI_X", none, lit "struct s", [], lit "x", false, 32, 0⟩ (lit "x") .nil) := by decide +kernel
  rw [hg, Option.bind_some, hc, Option.bind_some] at hb
  refine ⟨g, tabs, [⟨lit "struct s", [⟨false, lit "struct p_ie_x", lit "x", 4⟩]⟩,
      ⟨lit "struct p_msg_m", [⟨false, lit "struct s", lit "a", 0⟩, ⟨false, lit "struct s", lit "b", 0⟩]⟩],
    [⟨lit "struct p_msg_m", [⟨false, lit "struct s", lit "a", 0⟩, ⟨false, lit "struct s", lit "b", 0⟩]⟩,
      ⟨lit "struct s", [⟨false, lit "struct p_ie_x", lit "x", 4⟩]⟩], hg, hc, by decide +kernel, by decide +kernel, ht,
    _, _, hb, rfl, by decide +kernel, ?_⟩
  intro h
  obtain ⟨-, -, -, ⟨⟨ms, m, h1, h2, -, h3, -⟩, -⟩, -⟩ := h _ (.head _)
  have e : structFor exCfg [⟨lit "struct p_msg_m", [⟨false, lit "struct s", lit "a", 0⟩, ⟨false, lit "struct s", lit "b", 0⟩]⟩,
      ⟨lit "struct s", [⟨false, lit "struct p_ie_x", lit "x", 4⟩]⟩]
      ⟨lit "P_IEI_X", none, lit "struct s", [], lit "x", false, 32, 0⟩ = some [⟨false, lit "struct p_ie_x", lit "x", 4⟩] := by
    decide +kernel
  have h1' : some [⟨false, lit "struct p_ie_x", lit "x", 4⟩] = some ms := e.symm.trans h1
  cases h1'
  simp at h2
  subst h2
  cases h3

/-- A name of 255 characters. -/
def exName : Text := List.replicate 255 120
/-- Two definitions, of which the second is used with two names, 255 and 256 characters long. -/
def exLongNames : List GMsg := [
  { name := lit "m"
    ies := .group { name := exName } { addr := 1 } (.ie { name := lit "a" } exLeaf .nil) <|
      .group { name := exName ++ [122] } { addr := 2 } (.ie { name := lit "b" } exLeaf .nil) <|
      .group { name := exName } { addr := 2 } (.ie { name := lit "b" } exLeaf .nil) .nil }]

/-- The member names in the nested tables of a table. -/
def nestedNames : Tab → List (List Text)
  | .nil => []
  | .func _ _ r => nestedNames r
  | .nested _ n r => (match n with | .func h _ .nil => [h.memb] | _ => []) :: nestedNames r

/-- The limit on the length of names in C77 is necessary: the third IE of this message should contain `b`, but its table is
that of the first, and contains `a`; the generator reports no error. -/
theorem C77_long_names : Identified exLongNames ∧
    exLongNames.map (fun m => nestedNames (msgTable exCfg m)) = [[[lit "a"], [lit "b"], [lit "b"]]] ∧
    ∃ g env t, writeC exCfg exLongNames = some g ∧ compile g.arrays [] = some env ∧
      env.get (lit "ies_in_msg_m") = some t ∧ nestedNames t = [[lit "a"], [lit "b"], [lit "a"]] := by
  refine ⟨identified_of (by decide +kernel), by decide +kernel, ?_⟩
  obtain ⟨g, hg⟩ : ∃ g, writeC exCfg exLongNames = some g := Option.isSome_iff_exists.1 (by decide +kernel)
  have hc : ((writeC exCfg exLongNames).bind fun g => compile g.arrays []).isSome = true := by decide +kernel
  have ht : (((writeC exCfg exLongNames).bind fun g => compile g.arrays []).bind
      (fun t => t.get (lit "ies_in_msg_m"))).map nestedNames = some [[lit "a"], [lit "b"], [lit "a"]] := by decide +kernel
  rw [hg, Option.bind_some] at hc ht
  obtain ⟨env, hc⟩ := Option.isSome_iff_exists.1 hc
  rw [hc, Option.bind_some] at ht
  cases he : CEnv.get env (lit "ies_in_msg_m") with
  | none => rw [he] at ht; cases ht
  | some t =>
    rw [he] at ht
    exact ⟨g, env, t, hg, hc, he, by simpa using ht⟩

/-- Two definitions with the same name: the generator exits with an error. -/
example : writeC exCfg [
    { name := lit "m"
      ies := .group { name := lit "a" } { addr := 1 } (.ie { name := lit "x" } exLeaf .nil) .nil },
    { name := lit "n"
      ies := .group { name := lit "a" } { addr := 2 } (.ie { name := lit "y" } exLeaf .nil) .nil }] = none := by
  refine (C77_rejects (identified_of (by decide +kernel)) (short_of (by decide +kernel))).2 ?_
  exact ⟨_, _, _, _, _, _, .head _, .tail _ (.head _), rfl, by decide⟩

end Props
end Verif
