/-
What the arrays that gtlv_gen.c puts out read as.
-/
import Verif.GenTextReads

namespace Verif
open Spec Spec.Forest

/-! ### `.FIELD = VALUE,` -/

/-- Text that sets members of a `struct osmo_gtlv_coding`. -/
def Sets (t : Text) (f : CCoding → CCoding) : Prop :=
  ∃ fo l, ReadsAs t fo ∧ Parts fo l ∧ ∀ e rest, designated (l ++ rest) e = designated rest (f e)

theorem Sets.nil : Sets [] id := ⟨.nil, [], ReadsAs.nil, Parts.nil, fun _ _ => rfl⟩

theorem Sets.append {a b f g} (ha : Sets a f) (hb : Sets b g) : Sets (a ++ b) (fun e => g (f e)) := by
  obtain ⟨x, l, h1, h2, h3⟩ := ha
  obtain ⟨y, m, h4, h5, h6⟩ := hb
  refine ⟨x ++ y, l ++ m, h1.append h4, h2.append h5, fun e rest => ?_⟩
  rw [List.append_assoc, h3, h6]

/-- There are no commas in it, outside of brackets. -/
def NoCommas (v : Forest) : Prop := ∀ g acc : Forest, (v ++ g).commas acc = g.commas (acc ++ v)

theorem Sets.one {t name : Text} {fld : Field} {v : Forest} {f : CCoding → CCoding}
    (h : Lexes t (.sym 46 :: .word name :: .sym 61 :: (v.toks ++ [.sym 44]))) (hw : v.wf = true) (hv : NoCommas v)
    (hf : fieldOf name = some fld) (hs : ∀ e : CCoding, e.set fld v = some (f e)) : Sets t f := by
  refine ⟨.sym 46 (.word name (.sym 61 (v ++ .sym 44 .nil))), [.sym 46 (.word name (.sym 61 v))], ⟨?_, ?_⟩, fun g => ?_, fun e rest => ?_⟩
  · simpa only [toks, toks_append] using h
  · simp only [Forest.wf, Bool.and_eq_true]
    exact ⟨⟨rfl, rfl⟩, ⟨rfl, rfl⟩, wf_append hw rfl⟩
  · simp only [sym_append, word_append, append_assoc', nil_append', Forest.commas]
    rw [if_neg (by decide), if_neg (by decide), hv]
    rfl
  · simp only [List.cons_append, List.nil_append, designated, hf, Option.bind_some, hs]

theorem noCommas_word (w : Text) : NoCommas (.word w .nil) := fun _ _ => rfl

/-- The value is a name or a number. -/
theorem Sets.word {a w name : Text} {fld : Field} {f : CCoding → CCoding} (hw : Word w) (ha : Lexes a [.sym 46, .word name, .sym 61])
    (hf : fieldOf name = some fld) (hs : ∀ e : CCoding, e.set fld (.word w .nil) = some (f e)) : Sets (a ++ (w ++ lit ",\n")) f :=
  Sets.one (v := .word w .nil) (Lexes.app ha (Lexes.word hw (by decide +kernel) (l := [.sym 44]) (by decide +kernel)) rfl) rfl
    (noCommas_word w) hf hs

/-- `MEMB` or `SUB.MEMB` -/
structure IsPath (t : Text) (f : Forest) : Prop where
  wf : f.wf = true
  glue : glue f.toks = t
  commas : f.commas .nil = [f]
  lexes : ∀ {tail l}, sep tail = true → Lexes tail l → Lexes (t ++ tail) (f.toks ++ l)

theorem isPath_memb {m : Text} (hm : Word m) : IsPath m (.word m .nil) where
  wf := rfl
  glue := by simp [toks, Spec.glue]
  commas := rfl
  lexes := fun hs h => Lexes.word hm hs h

theorem isPath_sub {s m : Text} (hs : Word s) (hm : Word m) : IsPath (s ++ lit "." ++ m) (.word s (.sym 46 (.word m .nil))) where
  wf := rfl
  glue := by
    rw [show lit "." = [46] by decide +kernel]
    simp [toks, Spec.glue]
  commas := rfl
  lexes := fun hsep h => by
    rw [List.append_assoc, List.append_assoc]
    exact Lexes.word hs (sep_append (by decide +kernel))
      (Lexes.app (x := [.sym 46]) (by decide +kernel) (Lexes.word hm hsep h) rfl)

/-- `FUNCTION(TYPE, PATH)` -/
def callF (fn : Text) (ws : List Text) (p : Forest) : Forest := .word fn (.grp 40 (wordsF ws ++ .sym 44 p) .nil)

theorem typePath_callF {fn path : Text} {ws : List Text} {p : Forest} (h : IsPath path p) :
    typePath fn (callF fn ws p) = some (spaced ws, path) := by
  have e : (wordsF ws ++ .sym 44 p).commas .nil = [wordsF ws, p] := by
    rw [commas_words, Forest.commas, if_pos rfl, h.commas]
    rfl
  simp only [callF, typePath, e, words_all, h.glue, and_self, if_true]

/-- The value is the place of a member. -/
theorem Sets.place {a name fn path : Text} {ws : List Text} {p : Forest} {fld : Field} {f : CCoding → CCoding} (hne : ws ≠ []) (hws : ∀ w ∈ ws, Word w)
    (hp : IsPath path p) (ha : Lexes a [.sym 46, .word name, .sym 61, .word fn, .sym 40]) (hf : fieldOf name = some fld)
    (hs : ∀ e : CCoding, e.set fld (callF fn ws p) = some (f e)) : Sets (a ++ (spaced ws ++ (lit ", " ++ (path ++ lit "),\n")))) f := by
  refine Sets.one (v := callF fn ws p) ?_ ?_ (fun g acc => by simp only [callF, word_append, grp_append, nil_append', Forest.commas, append_assoc']) hf hs
  · refine Lexes.app ha (Lexes.words hws hne (sep_append (by decide +kernel)) (l := .sym 44 :: (p.toks ++ [.sym 41, .sym 44])) ?_) ?_
    · exact Lexes.app (x := [.sym 44]) (by decide +kernel) (hp.lexes (by decide +kernel) (by decide +kernel)) rfl
    · simp only [callF, toks, toks_append, toks_wordsF, List.append_assoc, List.cons_append, List.nil_append]
      rfl
  · simp only [callF, Forest.wf, Bool.and_eq_true, Bool.and_true]
    refine ⟨rfl, wf_append (wf_wordsF ws) ?_⟩
    simp only [Forest.wf, hp.wf]
    rfl

/-! ### Elements -/

/-- Text that is elements of an array. -/
def HasCodings (t : Text) (es : List CCoding) : Prop :=
  ∃ fo l, ReadsAs t fo ∧ Parts fo l ∧ ∀ rest, codingsOf (l ++ rest) = (codingsOf rest).map (es ++ ·)

theorem HasCodings.nil : HasCodings [] [] := by
  refine ⟨.nil, [], ReadsAs.nil, Parts.nil, fun rest => ?_⟩
  rw [List.nil_append]
  cases codingsOf rest <;> rfl

theorem HasCodings.append {a b x y} (ha : HasCodings a x) (hb : HasCodings b y) : HasCodings (a ++ b) (x ++ y) := by
  obtain ⟨f, l, h1, h2, h3⟩ := ha
  obtain ⟨g, m, h4, h5, h6⟩ := hb
  refine ⟨f ++ g, l ++ m, h1.append h4, h2.append h5, fun rest => ?_⟩
  rw [List.append_assoc, h3, h6]
  cases codingsOf rest with
  | none => rfl
  | some z => simp

/-- `{ { TAG }, FIELDS },` -/
theorem hasCodings_one {a t b : Text} {tf : Forest} {base : CCoding} {f : CCoding → CCoding} (hwf : tf.wf = true) (htag : tagInit tf = some base)
    (ha : Lexes a (.sym 123 :: .sym 123 :: (tf.toks ++ [.sym 125, .sym 44]))) (ht : Sets t f) (hb : Lexes b [.sym 125, .sym 44]) :
    HasCodings (a ++ (t ++ b)) [f base] := by
  obtain ⟨fo, l, h1, h2, h3⟩ := ht
  have hl : fo.commas .nil = l := by
    have := h2 .nil
    rwa [append_nil', show Forest.commas .nil .nil = [] from rfl, List.append_nil] at this
  have hcod : codingOf (.grp 123 tf (.sym 44 fo)) = some (f base) := by
    have e : (Forest.grp 123 tf (.sym 44 fo)).commas .nil = .grp 123 tf .nil :: l := by
      rw [Forest.commas, Forest.commas, if_pos rfl, hl]
      rfl
    have h := h3 base []
    rw [List.append_nil] at h
    rw [codingOf, e]
    simp only [htag, Option.bind_some, h]
    rfl
  refine ⟨.grp 123 (.grp 123 tf (.sym 44 fo)) (.sym 44 .nil), [.grp 123 (.grp 123 tf (.sym 44 fo)) .nil], ⟨?_, ?_⟩, fun g => rfl, fun rest => ?_⟩
  · refine Lexes.app ha (h1.1.append hb) ?_
    simp only [toks, List.cons_append, List.append_assoc, List.nil_append]
    rfl
  · simp only [Forest.wf, hwf, h1.2]
    rfl
  · simp only [List.cons_append, List.nil_append, codingsOf, hcod, Option.bind_some, reduceCtorEq, if_false]
    cases codingsOf rest <;> rfl

/-- `{ TAG }`, or `{ TAG, true, INSTANCE }` -/
def tagF (tag : Text) : Option Text → Forest
  | none => .word tag .nil
  | some t => .word tag (.sym 44 (.word (lit "true") (.sym 44 (.word t .nil))))

theorem tagInit_tagF (tag : Text) (inst : Option Text) : tagInit (tagF tag inst) = some { tag, inst } := by
  cases inst with
  | none => rfl
  | some t =>
    have e : (tagF tag (some t)).commas .nil = [.word tag .nil, .word (lit "true") .nil, .word t .nil] := rfl
    rw [tagInit, e]
    simp only [if_true]

/-- (gtlv_gen.c:264-266) -/
def instText : Option Text → Text
  | some t => lit ", true, " ++ t
  | none => []

theorem tag_lexes {tag : Text} {inst : Option Text} (ht : Word tag) (hi : ∀ t, inst = some t → Word t) :
    Lexes (lit "\t" ++ lit "{ { " ++ tag ++ instText inst ++ lit " },\n")
      (.sym 123 :: .sym 123 :: ((tagF tag inst).toks ++ [.sym 125, .sym 44])) := by
  simp only [List.append_assoc]
  refine Lexes.app (x := []) (by decide +kernel) (Lexes.app (x := [.sym 123, .sym 123]) (by decide +kernel) ?_ rfl) rfl
  cases inst with
  | none => exact Lexes.word ht (by decide +kernel) (by decide +kernel)
  | some t =>
    simp only [instText, List.append_assoc]
    exact Lexes.word ht (sep_append (by decide +kernel)) (Lexes.app (x := [.sym 44, .word (lit "true"), .sym 44]) (by decide +kernel)
      (Lexes.word (hi t rfl) (by decide +kernel) (l := [.sym 125, .sym 44]) (by decide +kernel)) rfl)

/-- The text before a member: nothing, or `SUB.` -/
def SubText (subT sub : Text) : Prop := (sub = [] ∧ subT = []) ∨ (Word sub ∧ subT = sub ++ lit ".")

theorem SubText.path {subT sub m : Text} (h : SubText subT sub) (hm : Word m) :
    (∃ p, IsPath (subT ++ m) p) ∧ (if sub = [] then m else sub ++ lit "." ++ m) = subT ++ m := by
  rcases h with ⟨rfl, rfl⟩ | ⟨hs, rfl⟩
  · exact ⟨⟨_, isPath_memb hm⟩, rfl⟩
  · exact ⟨⟨_, isPath_sub hs hm⟩, if_neg hs.1⟩

/-- (gtlv_gen.c:280-286) -/
def setCount (obj path : Text) (o : GOcc) (e : CCoding) : CCoding :=
  if o.multi ≠ 0 then { e with pitch := some (obj, path), hasCount := true, countMax := o.multi, countMandatory := o.multiMandatory, countOfs := some (obj, path ++ lit "_count") } else e

/-- (gtlv_gen.c:287-291) -/
def setPresence (obj path : Text) (o : GOcc) (e : CCoding) : CCoding :=
  if o.optional then { e with hasPresence := true, presenceOfs := some (obj, path ++ lit "_present") } else e

/-- (gtlv_gen.c:258-293) -/
theorem entryText_has {c : GCfg} {obj subT sub body : Text} {o : GOcc} {i : GInfo} {f : CCoding → CCoding} (ho : TypeName obj)
    (hsub : SubText subT sub) (htp : ∀ x ∈ c.tagPrefix, identChar x = true) (ht : Word (i.tagName.getD o.name)) (hn : Word o.name)
    (hi : ∀ t, o.inst = some t → Word t) (hb : Sets body f) :
    HasCodings (c.entryText obj subT o i body)
      [setPresence obj (subT ++ o.name) o (setCount obj (subT ++ o.name) o
        (f { tag := c.tagPrefix ++ toUpper (i.tagName.getD o.name), inst := o.inst, membOfs := some (obj, subT ++ o.name) }))] := by
  obtain ⟨ws, hne, hws, rfl⟩ := ho
  obtain ⟨p, hp⟩ := (hsub.path hn).1
  obtain ⟨pc, hpc⟩ := (hsub.path (hn.append (ident_lit (s := "_count") (by decide +kernel)))).1
  obtain ⟨pp, hpp⟩ := (hsub.path (hn.append (ident_lit (s := "_present") (by decide +kernel)))).1
  have htag : Word (c.tagPrefix ++ toUpper (i.tagName.getD o.name)) := word_upper htp ht
  have h1 : Sets (lit "\t  .memb_ofs = offsetof(" ++ (spaced ws ++ (lit ", " ++ ((subT ++ o.name) ++ lit "),\n"))))
      (fun e => { e with membOfs := some (spaced ws, subT ++ o.name) }) :=
    Sets.place (fld := .membOfs) (fn := lit "offsetof") (name := lit "memb_ofs") hne hws hp (by decide +kernel) (by decide +kernel)
      (fun e => by simp only [CCoding.set, typePath_callF hp, Option.map_some])
  have h2 : Sets (if o.multi ≠ 0 then
      (lit "\t  .memb_array_pitch = OSMO_MEMB_ARRAY_PITCH(" ++ (spaced ws ++ (lit ", " ++ ((subT ++ o.name) ++ lit "),\n")))) ++
      (lit "\t  .has_count = true," ++ ((lit " .count_max = " ++ (dec o.multi ++ lit ",\n")) ++
      ((lit "\t  .count_mandatory = " ++ (dec o.multiMandatory ++ lit ",\n")) ++
      (lit "\t  .count_ofs = offsetof(" ++ (spaced ws ++ (lit ", " ++ ((subT ++ (o.name ++ lit "_count")) ++ lit "),\n")))))))
      else []) (setCount (spaced ws) (subT ++ o.name) o) := by
    by_cases hm : o.multi = 0
    · have e : setCount (spaced ws) (subT ++ o.name) o = id := by
        funext e
        rw [setCount, if_neg (by simpa using hm)]
        rfl
      rw [if_neg (by simpa using hm), e]
      exact Sets.nil
    · have e : setCount (spaced ws) (subT ++ o.name) o = fun e => { e with
          pitch := some (spaced ws, subT ++ o.name), hasCount := true, countMax := o.multi, countMandatory := o.multiMandatory
          countOfs := some (spaced ws, subT ++ (o.name ++ lit "_count")) } := by
        funext e
        rw [setCount, if_pos hm, List.append_assoc]
      rw [if_pos hm, e]
      have s1 : Sets (lit "\t  .memb_array_pitch = OSMO_MEMB_ARRAY_PITCH(" ++ (spaced ws ++ (lit ", " ++ ((subT ++ o.name) ++ lit "),\n"))))
          (fun e => { e with pitch := some (spaced ws, subT ++ o.name) }) :=
        Sets.place (fld := .pitch) (fn := lit "OSMO_MEMB_ARRAY_PITCH") (name := lit "memb_array_pitch") hne hws hp (by decide +kernel)
          (by decide +kernel) (fun e => by simp only [CCoding.set, typePath_callF hp, Option.map_some])
      have s2 : Sets (lit "\t  .has_count = true,") (fun e => { e with hasCount := true }) :=
        Sets.one (fld := .hasCount) (name := lit "has_count") (v := .word (lit "true") .nil) (by decide +kernel) rfl (noCommas_word _)
          (by decide +kernel) (fun e => by simp only [CCoding.set, single, if_true])
      have s3 : Sets (lit " .count_max = " ++ (dec o.multi ++ lit ",\n")) (fun e => { e with countMax := o.multi }) :=
        Sets.word (fld := .countMax) (name := lit "count_max") (word_dec _) (by decide +kernel) (by decide +kernel)
          (fun e => by simp only [CCoding.set, single, Option.bind_some, decimal_dec, Option.map_some])
      have s4 : Sets (lit "\t  .count_mandatory = " ++ (dec o.multiMandatory ++ lit ",\n")) (fun e => { e with countMandatory := o.multiMandatory }) :=
        Sets.word (fld := .countMandatory) (name := lit "count_mandatory") (word_dec _) (by decide +kernel) (by decide +kernel)
          (fun e => by simp only [CCoding.set, single, Option.bind_some, decimal_dec, Option.map_some])
      have s5 : Sets (lit "\t  .count_ofs = offsetof(" ++ (spaced ws ++ (lit ", " ++ ((subT ++ (o.name ++ lit "_count")) ++ lit "),\n"))))
          (fun e => { e with countOfs := some (spaced ws, subT ++ (o.name ++ lit "_count")) }) :=
        Sets.place (fld := .countOfs) (fn := lit "offsetof") (name := lit "count_ofs") hne hws hpc (by decide +kernel)
          (by decide +kernel) (fun e => by simp only [CCoding.set, typePath_callF hpc, Option.map_some])
      exact s1.append (s2.append (s3.append (s4.append s5)))
  have h3 : Sets (if o.optional then lit "\t  .has_presence_flag = true,\n" ++
      (lit "\t  .presence_flag_ofs = offsetof(" ++ (spaced ws ++ (lit ", " ++ ((subT ++ (o.name ++ lit "_present")) ++ lit "),\n"))))
      else []) (setPresence (spaced ws) (subT ++ o.name) o) := by
    cases hopt : o.optional with
    | false =>
      have e : setPresence (spaced ws) (subT ++ o.name) o = id := by
        funext e
        simp [setPresence, hopt]
      rw [e]
      exact Sets.nil
    | true =>
      have e : setPresence (spaced ws) (subT ++ o.name) o = fun e => { e with
          hasPresence := true, presenceOfs := some (spaced ws, subT ++ (o.name ++ lit "_present")) } := by
        funext e
        simp [setPresence, hopt]
      rw [e]
      have s1 : Sets (lit "\t  .has_presence_flag = true,\n") (fun e => { e with hasPresence := true }) :=
        Sets.one (fld := .hasPresence) (name := lit "has_presence_flag") (v := .word (lit "true") .nil) (by decide +kernel) rfl (noCommas_word _)
          (by decide +kernel) (fun e => by simp only [CCoding.set, single, if_true])
      have s2 : Sets (lit "\t  .presence_flag_ofs = offsetof(" ++ (spaced ws ++ (lit ", " ++ ((subT ++ (o.name ++ lit "_present")) ++ lit "),\n"))))
          (fun e => { e with presenceOfs := some (spaced ws, subT ++ (o.name ++ lit "_present")) }) :=
        Sets.place (fld := .presenceOfs) (fn := lit "offsetof") (name := lit "presence_flag_ofs") hne hws hpp (by decide +kernel)
          (by decide +kernel) (fun e => by simp only [CCoding.set, typePath_callF hpp, Option.map_some])
      exact s1.append s2
  have key := hasCodings_one (b := lit "\t" ++ lit "},\n") (tf := tagF (c.tagPrefix ++ toUpper (i.tagName.getD o.name)) o.inst)
    (by cases o.inst <;> rfl) (tagInit_tagF _ _) (tag_lexes htag hi) (h1.append (hb.append (h2.append h3))) (by decide +kernel)
  have e : c.entryText (spaced ws) subT o i body =
      (lit "\t" ++ lit "{ { " ++ (c.tagPrefix ++ toUpper (i.tagName.getD o.name)) ++ instText o.inst ++ lit " },\n") ++
      (((lit "\t  .memb_ofs = offsetof(" ++ (spaced ws ++ (lit ", " ++ ((subT ++ o.name) ++ lit "),\n")))) ++ (body ++
      ((if o.multi ≠ 0 then
      (lit "\t  .memb_array_pitch = OSMO_MEMB_ARRAY_PITCH(" ++ (spaced ws ++ (lit ", " ++ ((subT ++ o.name) ++ lit "),\n")))) ++
      (lit "\t  .has_count = true," ++ ((lit " .count_max = " ++ (dec o.multi ++ lit ",\n")) ++
      ((lit "\t  .count_mandatory = " ++ (dec o.multiMandatory ++ lit ",\n")) ++
      (lit "\t  .count_ofs = offsetof(" ++ (spaced ws ++ (lit ", " ++ ((subT ++ (o.name ++ lit "_count")) ++ lit "),\n")))))))
      else []) ++ (if o.optional then lit "\t  .has_presence_flag = true,\n" ++
      (lit "\t  .presence_flag_ofs = offsetof(" ++ (spaced ws ++ (lit ", " ++ ((subT ++ (o.name ++ lit "_present")) ++ lit "),\n"))))
      else [])))) ++ (lit "\t" ++ lit "},\n")) := by
    rw [GCfg.entryText]
    rw [show lit "\t  .memb_ofs = offsetof(" = lit "\t" ++ lit "  .memb_ofs = offsetof(" by decide +kernel,
      show lit "\t  .memb_array_pitch = OSMO_MEMB_ARRAY_PITCH(" = lit "\t" ++ lit "  .memb_array_pitch = OSMO_MEMB_ARRAY_PITCH(" by decide +kernel,
      show lit "  .has_count = true, .count_max = " = lit "  .has_count = true," ++ lit " .count_max = " by decide +kernel,
      show lit "\t  .has_count = true," = lit "\t" ++ lit "  .has_count = true," by decide +kernel,
      show lit "\t  .count_mandatory = " = lit "\t" ++ lit "  .count_mandatory = " by decide +kernel,
      show lit "\t  .count_ofs = offsetof(" = lit "\t" ++ lit "  .count_ofs = offsetof(" by decide +kernel,
      show lit "\t  .has_presence_flag = true,\n" = lit "\t" ++ lit "  .has_presence_flag = true,\n" by decide +kernel,
      show lit "\t  .presence_flag_ofs = offsetof(" = lit "\t" ++ lit "  .presence_flag_ofs = offsetof(" by decide +kernel,
      show lit "_count),\n" = lit "_count" ++ lit "),\n" by decide +kernel,
      show lit "_present),\n" = lit "_present" ++ lit "),\n" by decide +kernel]
    cases o.inst <;> simp only [List.append_assoc, instText, List.nil_append]
  rw [e]
  exact key

/-- (gtlv_gen.c:272-278) -/
theorem funcsText_sets {c : GCfg} {s : Text} (hp : Word c.protoName) (hs : Word s) :
    Sets (c.funcsText s) (fun e => { e with
      decFunc := some (c.protoName ++ lit "_dec_" ++ s), encFunc := some (c.protoName ++ lit "_enc_" ++ s)
      strFunc := if c.addEncToStr then some (c.protoName ++ lit "_enc_to_str_" ++ s) else e.strFunc }) := by
  have w1 : Word (c.protoName ++ lit "_dec_" ++ s) := (hp.append (ident_lit (by decide +kernel))).append hs.2
  have w2 : Word (c.protoName ++ lit "_enc_" ++ s) := (hp.append (ident_lit (by decide +kernel))).append hs.2
  have w3 : Word (c.protoName ++ lit "_enc_to_str_" ++ s) := (hp.append (ident_lit (by decide +kernel))).append hs.2
  have s1 : Sets (lit "\t" ++ lit "  .dec_func = " ++ ((c.protoName ++ lit "_dec_" ++ s) ++ lit ",\n"))
      (fun e => { e with decFunc := some (c.protoName ++ lit "_dec_" ++ s) }) :=
    Sets.word (fld := .decFunc) (name := lit "dec_func") w1 (by decide +kernel) (by decide +kernel) (fun e => by simp only [CCoding.set, single, Option.map_some])
  have s2 : Sets (lit "\t" ++ lit "  .enc_func = " ++ ((c.protoName ++ lit "_enc_" ++ s) ++ lit ",\n"))
      (fun e => { e with encFunc := some (c.protoName ++ lit "_enc_" ++ s) }) :=
    Sets.word (fld := .encFunc) (name := lit "enc_func") w2 (by decide +kernel) (by decide +kernel) (fun e => by simp only [CCoding.set, single, Option.map_some])
  have s3 : Sets (lit "\t" ++ lit "  .enc_to_str_func = " ++ ((c.protoName ++ lit "_enc_to_str_" ++ s) ++ lit ",\n"))
      (fun e => { e with strFunc := some (c.protoName ++ lit "_enc_to_str_" ++ s) }) :=
    Sets.word (fld := .strFunc) (name := lit "enc_to_str_func") w3 (by decide +kernel) (by decide +kernel) (fun e => by simp only [CCoding.set, single, Option.map_some])
  rw [GCfg.funcsText]
  cases c.addEncToStr with
  | false =>
    have := s1.append s2
    simpa only [List.append_assoc, Bool.false_eq_true, if_false, List.append_nil] using this
  | true =>
    have := s1.append (s2.append s3)
    simpa only [List.append_assoc, if_true] using this

/-- (gtlv_gen.c:270) -/
theorem nestedText_sets {t : Text} (ht : Word t) : Sets (nestedText t) (fun e => { e with nested := some (lit "ies_in_" ++ t) }) := by
  have := Sets.word (fld := .nested) (name := lit "nested_ies") (a := lit "\t" ++ lit "  .nested_ies = ") (Spec.Word.after (ident_lit (s := "ies_in_") (by decide +kernel)) ht)
    (by decide +kernel) (by decide +kernel) (f := fun e => { e with nested := some (lit "ies_in_" ++ t) }) (fun e => by simp only [CCoding.set, single, Option.map_some])
  rw [nestedText, show lit "  .nested_ies = ies_in_" = lit "  .nested_ies = " ++ lit "ies_in_" by decide +kernel]
  simpa only [List.append_assoc] using this

/-- What must hold of each IE. -/
structure Readable (c : GCfg) (o : GOcc) (i : GInfo) : Prop where
  name : Word o.name
  tag : Word (i.tagName.getD o.name)
  type : TypeName (c.decodedType o i)
  func : Word (suffixOf o i)
  inst : ∀ t, o.inst = some t → Word t

/-- (gtlv_gen.c:257-294) -/
theorem entriesText_has {c : GCfg} {obj subT sub : Text} (ho : TypeName obj) (hsub : SubText subT sub) (hp : Word c.protoName)
    (htp : ∀ x ∈ c.tagPrefix, identChar x = true) (g : GIes) (h : ∀ o i, (o, i) ∈ occsIn g → Readable c o i) :
    HasCodings (g.entriesText c obj subT) ((g.entries c obj sub).map (entryCoding c.protoName c.addEncToStr)) := by
  have head : ∀ o i, Readable c o i → headCoding (c.head obj sub o i) = setPresence obj (subT ++ o.name) o (setCount obj (subT ++ o.name) o
      { tag := c.tagPrefix ++ toUpper (i.tagName.getD o.name), inst := o.inst, membOfs := some (obj, subT ++ o.name) }) := by
    intro o i hr
    have hpath : (if (c.head obj sub o i).sub = [] then (c.head obj sub o i).memb else (c.head obj sub o i).sub ++ lit "." ++ (c.head obj sub o i).memb) =
      subT ++ o.name := (hsub.path hr.name).2
    rw [headCoding]
    simp only [hpath]
    rw [setPresence, setCount]
    simp only [GCfg.head]
    by_cases hm : o.multi = 0
    · by_cases ho : o.optional = true <;> simp [hm, ho]
    · by_cases ho : o.optional = true <;> simp [hm, ho]
  induction g with
  | nil => exact HasCodings.nil
  | ie o i r ih =>
    have hr := h o i (by simp [occsIn])
    have h1 := entryText_has ho hsub htp hr.tag hr.name hr.inst (funcsText_sets hp hr.func)
    have e2 : entryCoding c.protoName c.addEncToStr ⟨c.head obj sub o i, .func (suffixOf o i)⟩ =
        setPresence obj (subT ++ o.name) o (setCount obj (subT ++ o.name) o
          { tag := c.tagPrefix ++ toUpper (i.tagName.getD o.name), inst := o.inst, membOfs := some (obj, subT ++ o.name)
            decFunc := some (c.protoName ++ lit "_dec_" ++ suffixOf o i), encFunc := some (c.protoName ++ lit "_enc_" ++ suffixOf o i)
            strFunc := if c.addEncToStr then some (c.protoName ++ lit "_enc_to_str_" ++ suffixOf o i) else none }) := by
      simp only [entryCoding, head o i hr]
      rw [setPresence, setPresence, setCount, setCount]
      by_cases hm : o.multi = 0
      · by_cases ho : o.optional = true <;> simp [hm, ho]
      · by_cases ho : o.optional = true <;> simp [hm, ho]
    rw [GIes.entriesText, GIes.entries, List.map_cons, e2]
    exact HasCodings.append (x := [_]) h1 (ih fun o i hm => h o i (by simp [occsIn, hm]))
  | group o i n r _ ih =>
    have hr := h o i (by simp [occsIn])
    have h1 := entryText_has ho hsub htp hr.tag hr.name hr.inst (nestedText_sets hr.tag)
    have e2 : entryCoding c.protoName c.addEncToStr ⟨c.head obj sub o i, .nested (arrayName o i)⟩ =
        setPresence obj (subT ++ o.name) o (setCount obj (subT ++ o.name) o
          { tag := c.tagPrefix ++ toUpper (i.tagName.getD o.name), inst := o.inst, membOfs := some (obj, subT ++ o.name)
            nested := some (lit "ies_in_" ++ i.tagName.getD o.name) }) := by
      simp only [entryCoding, head o i hr]
      rw [setPresence, setPresence, setCount, setCount]
      by_cases hm : o.multi = 0
      · by_cases ho : o.optional = true <;> simp [hm, arrayName, ho]
      · by_cases ho : o.optional = true <;> simp [hm, arrayName, ho]
    rw [GIes.entriesText, GIes.entries, List.map_cons, e2]
    exact HasCodings.append (x := [_]) h1 (ih fun o i hm => h o i (by simp [occsIn, hm]))

/-! ### Arrays -/

/-- `static const struct osmo_gtlv_coding NAME[] = { ELEMENTS {} };` -/
theorem declares_codings {a t b name : Text} {es : List CCoding}
    (ha : Lexes a [.word (lit "static"), .word (lit "const"), .word (lit "struct"), .word (lit "osmo_gtlv_coding"), .word name, .sym 91, .sym 93, .sym 61, .sym 123])
    (ht : HasCodings t es) (hb : Lexes b [.sym 123, .sym 125, .sym 125, .sym 59]) : Declares (a ++ (t ++ b)) [.codings name es] := by
  obtain ⟨fo, l, h1, h2, h3⟩ := ht
  have hl : (fo ++ .grp 123 .nil .nil).commas .nil = l ++ [.grp 123 .nil .nil] := h2 _
  have hes : codingsOf (l ++ [.grp 123 .nil .nil]) = some es := by
    rw [h3]
    simp [codingsOf]
  let pre := wordsF [lit "static", lit "const", lit "struct", lit "osmo_gtlv_coding", name]
  refine Declares.one (f := pre ++ .grp 91 .nil (.sym 61 (.grp 123 (fo ++ .grp 123 .nil .nil) (.sym 59 .nil))))
    (d := pre ++ .grp 91 .nil (.sym 61 (.grp 123 (fo ++ .grp 123 .nil .nil) .nil))) ⟨?_, wf_append (wf_wordsF _) ?_⟩ ⟨rfl, fun g _ => ?_⟩ ?_
  · refine Lexes.app ha (h1.1.append hb) ?_
    simp only [toks, toks_append, pre, wordsF, List.append_assoc, List.cons_append, List.nil_append]
    rfl
  · simp only [Forest.wf, wf_append h1.2 (show Forest.wf (.grp 123 .nil .nil) = true from rfl)]
    rfl
  · rw [append_assoc', declarations_words]
    simp only [grp_append, sym_append, nil_append', Forest.declarations, Forest.semicolon, beq_self_eq_true, Bool.true_eq_false,
      and_false, if_false, if_true]
    rw [if_neg (by decide), if_neg (by decide)]
    simp only [append_assoc', grp_append, sym_append, nil_append']
    rfl
  · have hw : (pre ++ .grp 91 .nil (.sym 61 (.grp 123 (fo ++ .grp 123 .nil .nil) .nil))).words =
        ([lit "static", lit "const", lit "struct", lit "osmo_gtlv_coding", name], .grp 91 .nil (.sym 61 (.grp 123 (fo ++ .grp 123 .nil .nil) .nil))) := rfl
    rw [itemOf, hw]
    simp only
    rw [if_pos (by decide +kernel), hl, hes]
    rfl

/-- (gtlv_gen.c:306-327) -/
theorem arraysText_declares {c : GCfg} (hp : Word c.protoName) (htp : ∀ x ∈ c.tagPrefix, identChar x = true) (g : GIes)
    (h : ∀ o i, (o, i) ∈ occsIn g → Readable c o i) :
    ∀ l, (g.arrays c l = none ∧ g.arraysText c l = none) ∨
      ∃ ss t l', g.arrays c l = some (ss, l') ∧ g.arraysText c l = some (t, l') ∧
        Declares t (ss.map (arrayItem c.protoName c.addEncToStr)) := by
  induction g with
  | nil => intro l; exact .inr ⟨[], [], l, rfl, rfl, Declares.nil⟩
  | ie o i r ih => exact ih fun o i hm => h o i (by simp [occsIn, hm])
  | group o i n r ih1 ih2 =>
    intro l
    rw [GIes.arrays, GIes.arraysText]
    rcases ih1 (fun o i hm => h o i (by simp [occsIn, hm])) l with ⟨e1, e2⟩ | ⟨s1, t1, l1, e1, e2, d1⟩
    · exact .inl ⟨by rw [e1]; rfl, by rw [e2]; rfl⟩
    · rw [e1, e2, Option.bind_some, Option.bind_some]
      simp only
      cases hseen : seen l1 (i.tagName.getD o.name) (some i.addr) with
      | none => exact .inl ⟨rfl, rfl⟩
      | some x =>
        obtain ⟨b, l2⟩ := x
        simp only [Option.bind_some]
        rcases ih2 (fun o i hm => h o i (by simp [occsIn, hm])) l2 with ⟨e3, e4⟩ | ⟨s2, t2, l3, e3, e4, d2⟩
        · exact .inl ⟨by rw [e3]; rfl, by rw [e4]; rfl⟩
        · rw [e3, e4]
          refine .inr ⟨_, _, l3, rfl, rfl, ?_⟩
          rw [List.map_append, List.map_append]
          refine d1.append (Declares.append ?_ d2)
          cases b with
          | true => exact Declares.nil
          | false =>
            have hr := h o i (by simp [occsIn])
            have := declares_codings (a := lit "\nstatic const struct osmo_gtlv_coding " ++ ((lit "ies_in_" ++ i.tagName.getD o.name) ++ lit "[] = {\n"))
              (b := lit "\t" ++ lit "{}\n" ++ lit "};\n") (name := lit "ies_in_" ++ i.tagName.getD o.name)
              (Lexes.app (x := [.word (lit "static"), .word (lit "const"), .word (lit "struct"), .word (lit "osmo_gtlv_coding")]) (by decide +kernel)
                (Lexes.word (Spec.Word.after (ident_lit (by decide +kernel)) hr.tag) (by decide +kernel) (l := [.sym 91, .sym 93, .sym 61, .sym 123]) (by decide +kernel)) rfl)
              (entriesText_has hr.type (.inl ⟨rfl, rfl⟩) hp htp n fun o i hm => h o i (by simp [occsIn, hm])) (by decide +kernel)
            simp only [Bool.false_eq_true, if_false, List.map_cons, List.map_nil, arrayItem, arrayName]
            rw [show lit "\nstatic const struct osmo_gtlv_coding ies_in_" = lit "\nstatic const struct osmo_gtlv_coding " ++ lit "ies_in_" by decide +kernel]
            simpa only [List.append_assoc] using this

theorem typeName_union {p : Text} (hp : Word p) : TypeName (lit "union " ++ p ++ lit "_ies") := by
  refine ⟨[lit "union", p ++ lit "_ies"], by simp, ?_, ?_⟩
  · intro w hw
    rcases List.mem_cons.1 hw with rfl | hw
    · decide +kernel
    · rcases List.mem_cons.1 hw with rfl | hw
      · exact word_ies hp
      · cases hw
  · simp only [spaced]
    rw [show lit "union " = lit "union" ++ [32] by decide +kernel]
    simp only [List.append_assoc]

/-- (gtlv_gen.c:355-364) -/
theorem msgArrayText_declares {c : GCfg} {m : GMsg} (hp : Word c.protoName) (htp : ∀ x ∈ c.tagPrefix, identChar x = true) (hm : Word m.name)
    (h : ∀ o i, (o, i) ∈ occsIn m.ies → Readable c o i) :
    Declares (msgArrayText c m) [arrayItem c.protoName c.addEncToStr (msgArray c m)] := by
  have := declares_codings (a := lit "\nstatic const struct osmo_gtlv_coding " ++ ((lit "ies_in_msg_" ++ m.name) ++ lit "[] = {\n"))
    (b := lit "\t{}\n};\n") (name := lit "ies_in_msg_" ++ m.name)
    (Lexes.app (x := [.word (lit "static"), .word (lit "const"), .word (lit "struct"), .word (lit "osmo_gtlv_coding")]) (by decide +kernel)
      (Lexes.word (Spec.Word.after (ident_lit (by decide +kernel)) hm) (by decide +kernel) (l := [.sym 91, .sym 93, .sym 61, .sym 123]) (by decide +kernel)) rfl)
    (entriesText_has (typeName_union hp) (.inr ⟨hm, rfl⟩) hp htp m.ies h) (by decide +kernel)
  rw [msgArrayText, show lit "\nstatic const struct osmo_gtlv_coding ies_in_msg_" = lit "\nstatic const struct osmo_gtlv_coding " ++ lit "ies_in_msg_" by decide +kernel]
  simp only [arrayItem, msgArray, msgArrayName, GCfg.unionType]
  simpa only [List.append_assoc] using this

/-- `[INDEX] = NAME,` -/
def HasIndexed (t : Text) (es : List (Text × Text)) : Prop :=
  ∃ fo l, ReadsAs t fo ∧ Parts fo l ∧ ∀ rest, indexed (l ++ rest) = (indexed rest).map (es ++ ·)

theorem HasIndexed.nil : HasIndexed [] [] := by
  refine ⟨.nil, [], ReadsAs.nil, Parts.nil, fun rest => ?_⟩
  rw [List.nil_append]
  cases indexed rest <;> rfl

theorem HasIndexed.append {a b x y} (ha : HasIndexed a x) (hb : HasIndexed b y) : HasIndexed (a ++ b) (x ++ y) := by
  obtain ⟨f, l, h1, h2, h3⟩ := ha
  obtain ⟨g, m, h4, h5, h6⟩ := hb
  refine ⟨f ++ g, l ++ m, h1.append h4, h2.append h5, fun rest => ?_⟩
  rw [List.append_assoc, h3, h6]
  cases indexed rest with
  | none => rfl
  | some z => simp

theorem HasIndexed.one {t i n : Text} (h : Lexes t [.sym 91, .word i, .sym 93, .sym 61, .word n, .sym 44]) : HasIndexed t [(i, n)] := by
  refine ⟨.grp 91 (.word i .nil) (.sym 61 (.word n (.sym 44 .nil))), [.grp 91 (.word i .nil) (.sym 61 (.word n .nil))], ⟨h, rfl⟩,
    fun g => rfl, fun rest => ?_⟩
  simp only [List.cons_append, List.nil_append, indexed]

theorem HasIndexed.flatMap {α : Type} {f : α → Text} {d : α → Text × Text} {l : List α} (h : ∀ a ∈ l, HasIndexed (f a) [d a]) :
    HasIndexed (l.flatMap f) (l.map d) := by
  induction l with
  | nil => exact HasIndexed.nil
  | cons a l ih => exact (h a (by simp)).append (ih fun x hx => h x (by simp [hx]))

/-- (gtlv_gen.c:365-369) -/
theorem msgDefsText_declares {c : GCfg} {ms : List GMsg} (hmp : ∀ x ∈ c.messageTypePrefix, identChar x = true) (hm : ∀ m ∈ ms, Word m.name) :
    Declares (msgDefsText c ms)
      [.pointers (lit "msg_defs") (ms.map fun m => (c.messageTypePrefix ++ toUpper m.name, msgArrayName m))] := by
  have ht : HasIndexed (ms.flatMap fun m =>
        lit "\t[" ++ c.messageTypePrefix ++ toUpper m.name ++ lit "] = ies_in_msg_" ++ m.name ++ lit ",\n")
      (ms.map fun m => (c.messageTypePrefix ++ toUpper m.name, msgArrayName m)) := by
    refine HasIndexed.flatMap fun m hmm => HasIndexed.one ?_
    have e : lit "\t[" ++ c.messageTypePrefix ++ toUpper m.name ++ lit "] = ies_in_msg_" ++ m.name ++ lit ",\n" =
        lit "\t[" ++ ((c.messageTypePrefix ++ toUpper m.name) ++ (lit "] = " ++ ((lit "ies_in_msg_" ++ m.name) ++ lit ",\n"))) := by
      rw [show lit "] = ies_in_msg_" = lit "] = " ++ lit "ies_in_msg_" by decide +kernel]
      simp only [List.append_assoc]
    rw [e, msgArrayName]
    exact Lexes.app (x := [.sym 91]) (by decide +kernel) (Lexes.word (word_upper hmp (hm m hmm)) (sep_append (by decide +kernel))
      (Lexes.app (x := [.sym 93, .sym 61]) (by decide +kernel)
        (Lexes.word (Spec.Word.after (ident_lit (by decide +kernel)) (hm m hmm)) (by decide +kernel) (l := [.sym 44]) (by decide +kernel)) rfl)) rfl
  obtain ⟨fo, l, h1, h2, h3⟩ := ht
  have hl : fo.commas .nil = l := by
    have := h2 .nil
    rwa [append_nil', show Forest.commas .nil .nil = [] from rfl, List.append_nil] at this
  have hes : indexed l = some (ms.map fun m => (c.messageTypePrefix ++ toUpper m.name, msgArrayName m)) := by
    have := h3 []
    rw [List.append_nil] at this
    rw [this]
    simp [indexed]
  let pre := wordsF [lit "static", lit "const", lit "struct", lit "osmo_gtlv_coding"]
  rw [msgDefsText, List.append_assoc]
  refine Declares.one (f := pre ++ .sym 42 (.word (lit "msg_defs") (.grp 91 .nil (.sym 61 (.grp 123 fo (.sym 59 .nil))))))
    (d := pre ++ .sym 42 (.word (lit "msg_defs") (.grp 91 .nil (.sym 61 (.grp 123 fo .nil))))) ⟨?_, wf_append (wf_wordsF _) ?_⟩ ⟨rfl, fun g _ => ?_⟩ ?_
  · refine Lexes.app (x := [.word (lit "static"), .word (lit "const"), .word (lit "struct"), .word (lit "osmo_gtlv_coding"), .sym 42,
      .word (lit "msg_defs"), .sym 91, .sym 93, .sym 61, .sym 123]) (by decide +kernel) (h1.1.append (y := [.sym 125, .sym 59]) (by decide +kernel)) ?_
    simp only [toks, toks_append, pre, wordsF, List.cons_append, List.nil_append]
    rfl
  · simp only [Forest.wf, h1.2]
    rfl
  · rw [append_assoc', declarations_words]
    simp only [word_append, grp_append, sym_append, nil_append', Forest.declarations, Forest.semicolon, beq_self_eq_true, Bool.true_eq_false,
      and_false, if_false, if_true]
    rw [if_neg (by decide), if_neg (by decide), if_neg (by decide)]
    simp only [append_assoc', word_append, grp_append, sym_append, nil_append']
    rfl
  · have hw : (pre ++ .sym 42 (.word (lit "msg_defs") (.grp 91 .nil (.sym 61 (.grp 123 fo .nil))))).words =
        ([lit "static", lit "const", lit "struct", lit "osmo_gtlv_coding"], .sym 42 (.word (lit "msg_defs") (.grp 91 .nil (.sym 61 (.grp 123 fo .nil))))) := rfl
    rw [itemOf, hw]
    simp only
    rw [if_pos (by decide +kernel), hl, hes]
    rfl

end Verif
