/-
What the declarations of functions that gtlv_gen.c puts out read as.
-/
import Verif.GenTextReads

namespace Verif
open Spec Spec.Forest

/-! ### Text again -/

def startsWord : List Tok → Bool
  | .word _ :: _ => true
  | _ => false

def endsWord : List Tok → Bool
  | [] => false
  | [.word _] => true
  | [.sym _] => false
  | _ :: t :: l => endsWord (t :: l)

def endsSym : List Tok → Bool
  | [] => true
  | [.word _] => false
  | [.sym _] => true
  | _ :: t :: l => endsSym (t :: l)

theorem glue_cons (w : Text) (x : List Tok) : glue (.word w :: x) = w ++ ((if startsWord x then [32] else []) ++ glue x) := by
  cases x with
  | nil => rfl
  | cons t x => cases t <;> rfl

theorem startsWord_append {k x : List Tok} (h : k ≠ []) : startsWord (k ++ x) = startsWord k := by
  cases k with
  | nil => exact absurd rfl h
  | cons t k => cases t <;> rfl

theorem glue_endSym {k : List Tok} (h : endsSym k = true) (x : List Tok) : glue (k ++ x) = glue k ++ glue x := by
  induction k with
  | nil => rfl
  | cons t k ih =>
    cases k with
    | nil =>
      cases t with
      | word w => cases h
      | sym c => rfl
    | cons s k =>
      have h' : endsSym (s :: k) = true := by cases t <;> exact h
      cases t with
      | word w =>
        rw [List.cons_append, glue_cons, glue_cons, ih h', startsWord_append (by simp)]
        simp only [List.append_assoc]
      | sym c => rw [List.cons_append, glue, glue, ih h', List.cons_append]

theorem glue_endWord {k : List Tok} (h : endsWord k = true) {x : List Tok} (hx : startsWord x = true) :
    glue (k ++ x) = glue k ++ 32 :: glue x := by
  induction k with
  | nil => cases h
  | cons t k ih =>
    cases k with
    | nil =>
      cases t with
      | word w =>
        rw [List.singleton_append, glue_cons, hx, glue_cons]
        simp [startsWord, glue]
      | sym c => cases h
    | cons s k =>
      have h' : endsWord (s :: k) = true := by cases t <;> exact h
      cases t with
      | word w =>
        rw [List.cons_append, glue_cons, glue_cons, ih h', startsWord_append (by simp)]
        simp only [List.append_assoc]
      | sym c => rw [List.cons_append, glue, glue, ih h', List.cons_append]

theorem glue_word {w : Text} {x : List Tok} (h : startsWord x = false) : glue (.word w :: x) = w ++ glue x := by
  rw [glue_cons, h]
  rfl

theorem glue_words {ws : List Text} (hne : ws ≠ []) {x : List Tok} (hx : startsWord x = true) :
    glue (ws.map Tok.word ++ x) = spaced ws ++ 32 :: glue x := by
  induction ws with
  | nil => exact absurd rfl hne
  | cons w ws ih =>
    cases ws with
    | nil =>
      show glue (.word w :: x) = _
      rw [glue_cons, hx]
      rfl
    | cons v ws =>
      rw [List.map_cons, List.cons_append, glue_cons, ih (by simp), startsWord_append (by simp)]
      simp [spaced, startsWord]

/-! ### Functions -/

/-- What comes before the name of a function, and how it reads. -/
structure Lead (lead : Text) (pre : Forest) (shown : Text) : Prop where
  lexes : Lexes lead pre.toks
  wf : pre.wf = true
  start : ∀ x, (pre ++ x).semicolon = x.semicolon ∨ (pre ++ x).semicolon = false
  passes : ∀ x acc, (pre ++ x).declarations acc = x.declarations (acc ++ pre)
  proto : ∀ n i, itemOf (pre ++ .word n (.grp 40 i .nil)) = some (.other (glue (pre ++ .word n (.grp 40 i .nil)).toks))
  func : ∀ n i b, itemOf (pre ++ .word n (.grp 40 i (.grp 123 b .nil))) =
    some (.other (glue (pre ++ .word n (.grp 40 i (.grp 123 b .nil))).toks))
  glue : ∀ n x, glue (pre.toks ++ .word n :: x) = shown ++ glue (.word n :: x)

theorem lead_extern : Lead (lit "extern int ") (.word (lit "extern") (.word (lit "int") .nil)) (lit "extern int ") where
  lexes := by decide +kernel
  wf := rfl
  start := fun _ => .inr rfl
  passes := by
    intro x acc
    simp only [word_append, nil_append', Forest.declarations, append_assoc']
  proto := fun _ _ => rfl
  func := fun _ _ _ => rfl
  glue := by
    intro n x
    rw [glue_endWord rfl rfl]
    rw [show Spec.glue (Forest.toks (.word (lit "extern") (.word (lit "int") .nil))) = lit "extern int" by decide +kernel,
      show lit "extern int " = lit "extern int" ++ [32] by decide +kernel]
    simp

theorem lead_int : Lead (lit "\nint ") (.word (lit "int") .nil) (lit "int ") where
  lexes := by decide +kernel
  wf := rfl
  start := fun _ => .inr rfl
  passes := by
    intro x acc
    simp only [word_append, nil_append', Forest.declarations]
  proto := fun _ _ => rfl
  func := fun _ _ _ => rfl
  glue := by
    intro n x
    rw [glue_endWord rfl rfl]
    rw [show Spec.glue (Forest.toks (.word (lit "int") .nil)) = lit "int" by decide +kernel,
      show lit "int " = lit "int" ++ [32] by decide +kernel]
    simp

theorem lead_coding : Lead (lit "\nconst struct osmo_gtlv_coding *")
    (.word (lit "const") (.word (lit "struct") (.word (lit "osmo_gtlv_coding") (.sym 42 .nil)))) (lit "const struct osmo_gtlv_coding*") where
  lexes := by decide +kernel
  wf := rfl
  start := fun _ => .inr rfl
  passes := by
    intro x acc
    simp only [word_append, sym_append, nil_append', Forest.declarations, append_assoc']
    rfl
  proto := fun _ _ => rfl
  func := fun _ _ _ => rfl
  glue := by
    intro n x
    rw [glue_endSym rfl]
    rw [show Spec.glue (Forest.toks (.word (lit "const") (.word (lit "struct") (.word (lit "osmo_gtlv_coding") (.sym 42 .nil))))) =
      lit "const struct osmo_gtlv_coding*" by decide +kernel]

/-- A function is declared. -/
theorem Lead.proto_declares {lead : Text} {pre : Forest} {shown n tail : Text} {i : Forest} {out : Text} (h : Lead lead pre shown) (hn : Word n) (hsep : sep tail = true)
    (ht : Lexes tail (.sym 40 :: (i.toks ++ [.sym 41, .sym 59]))) (hi : i.wf = true)
    (hout : Spec.glue (.sym 40 :: (i.toks ++ [.sym 41])) = out) : Declares (lead ++ (n ++ tail)) [.other (shown ++ n ++ out)] := by
  have htoks : (pre ++ Forest.word n (.grp 40 i .nil)).toks = pre.toks ++ .word n :: .sym 40 :: (i.toks ++ [.sym 41]) := by
    rw [toks_append]; rfl
  have hitem : itemOf (pre ++ .word n (.grp 40 i .nil)) = some (.other (shown ++ n ++ out)) := by
    rw [h.proto, htoks, h.glue, glue_word rfl, hout, List.append_assoc]
  refine Declares.one (f := pre ++ .word n (.grp 40 i (.sym 59 .nil))) ⟨?_, wf_append h.wf ?_⟩ ⟨?_, fun g hg => ?_⟩ hitem
  · rw [toks_append]
    refine h.lexes.append (Lexes.word hn hsep ?_)
    exact ht
  · simp only [Forest.wf, hi]; rfl
  · rcases h.start (.word n (.grp 40 i (.sym 59 .nil))) with e | e
    · rw [e]; rfl
    · exact e
  · rw [append_assoc', h.passes]
    simp only [word_append, grp_append, sym_append, nil_append', Forest.declarations, if_true]
    rw [if_neg (fun h => absurd h.1 (by decide)), append_assoc']
    rfl

/-- A function is defined. -/
theorem Lead.func_declares {lead : Text} {pre : Forest} {shown n tail : Text} {i b : Forest} {out : Text} (h : Lead lead pre shown) (hn : Word n) (hsep : sep tail = true)
    (ht : Lexes tail (.sym 40 :: (i.toks ++ .sym 41 :: .sym 123 :: (b.toks ++ [.sym 125])))) (hi : i.wf = true) (hb : b.wf = true)
    (hout : Spec.glue (.sym 40 :: (i.toks ++ .sym 41 :: .sym 123 :: (b.toks ++ [.sym 125]))) = out) :
    Declares (lead ++ (n ++ tail)) [.other (shown ++ n ++ out)] := by
  have htoks : (pre ++ Forest.word n (.grp 40 i (.grp 123 b .nil))).toks =
      pre.toks ++ .word n :: .sym 40 :: (i.toks ++ .sym 41 :: .sym 123 :: (b.toks ++ [.sym 125])) := by
    rw [toks_append]; rfl
  have hitem : itemOf (pre ++ .word n (.grp 40 i (.grp 123 b .nil))) = some (.other (shown ++ n ++ out)) := by
    rw [h.func, htoks, h.glue, glue_word rfl, hout, List.append_assoc]
  refine Declares.one (f := pre ++ .word n (.grp 40 i (.grp 123 b .nil))) ⟨?_, wf_append h.wf ?_⟩ ⟨?_, fun g hg => ?_⟩ hitem
  · rw [toks_append]
    refine h.lexes.append (Lexes.word hn hsep ?_)
    exact ht
  · simp only [Forest.wf, hi, hb]; rfl
  · rcases h.start (.word n (.grp 40 i (.grp 123 b .nil))) with e | e
    · rw [e]; rfl
    · exact e
  · rw [append_assoc', h.passes]
    simp only [word_append, grp_append, nil_append', Forest.declarations]
    rw [if_neg (fun h => absurd h.1 (by decide)), if_pos ⟨trivial, hg⟩, append_assoc', append_assoc']
    rfl

/-- The forest of a literal. -/
def lf (s : String) : Forest := ((tokens (lit s)).bind fun l => nest l .nil []).getD .nil

theorem word3 {p s : Text} {m : String} (hp : Word p) (hm : (lit m).all identChar = true) (hs : Word s) : Word (p ++ (lit m ++ s)) := by
  rw [← List.append_assoc]
  exact (hp.append (ident_lit hm)).append hs.2

/-- (gtlv_gen.c:238-245) -/
theorem externText_declares {c : GCfg} {s : Text} (hp : Word c.protoName) (hs : Word s) :
    Declares (c.externText s) (externItems c.protoName c.addEncToStr s) := by
  rw [GCfg.externText, externItems]
  refine Declares.append (Declares.append (x := [_]) (y := [_]) ?_ ?_) ?_
  · have := lead_extern.proto_declares (n := c.protoName ++ (lit "_dec_" ++ s))
      (tail := lit "(void *decoded_struct, void *decode_to, const struct osmo_gtlv_load *gtlv);\n")
      (i := lf "void *decoded_struct, void *decode_to, const struct osmo_gtlv_load *gtlv")
      (out := lit "(void*decoded_struct,void*decode_to,const struct osmo_gtlv_load*gtlv)")
      (word3 hp (by decide +kernel) hs) (by decide +kernel) (by decide +kernel) (by decide +kernel) (by decide +kernel)
    simpa only [List.append_assoc] using this
  · have := lead_extern.proto_declares (n := c.protoName ++ (lit "_enc_" ++ s))
      (tail := lit "(struct osmo_gtlv_put *gtlv, const void *decoded_struct, const void *encode_from);\n")
      (i := lf "struct osmo_gtlv_put *gtlv, const void *decoded_struct, const void *encode_from")
      (out := lit "(struct osmo_gtlv_put*gtlv,const void*decoded_struct,const void*encode_from)")
      (word3 hp (by decide +kernel) hs) (by decide +kernel) (by decide +kernel) (by decide +kernel) (by decide +kernel)
    simpa only [List.append_assoc] using this
  · cases c.addEncToStr with
    | false => exact Declares.nil
    | true =>
      have := lead_extern.proto_declares (n := c.protoName ++ (lit "_enc_to_str_" ++ s))
        (tail := lit "(char *buf, size_t buflen, const void *encode_from);\n")
        (i := lf "char *buf, size_t buflen, const void *encode_from")
        (out := lit "(char*buf,size_t buflen,const void*encode_from)")
        (word3 hp (by decide +kernel) hs) (by decide +kernel) (by decide +kernel) (by decide +kernel) (by decide +kernel)
      simpa only [List.append_assoc, if_true] using this

/-- (gtlv_gen.c:224-247) -/
theorem externsText_declares {c : GCfg} (hp : Word c.protoName) (g : GIes) (h : ∀ o i, (o, i) ∈ occsIn g → Word (suffixOf o i)) :
    ∀ l, (g.externs l = none ∧ g.externsText c l = none) ∨
      ∃ ss t l', g.externs l = some (ss, l') ∧ g.externsText c l = some (t, l') ∧
        Declares t (ss.flatMap (externItems c.protoName c.addEncToStr)) := by
  induction g with
  | nil => intro l; exact .inr ⟨[], [], l, rfl, rfl, Declares.nil⟩
  | ie o i r ih =>
    intro l
    rw [GIes.externs, GIes.externsText]
    cases hseen : seen l (suffixOf o i) none with
    | none => exact .inl ⟨rfl, rfl⟩
    | some x =>
      obtain ⟨b, l1⟩ := x
      simp only [Option.bind_some]
      rcases ih (fun o i hm => h o i (by simp [occsIn, hm])) l1 with ⟨e3, e4⟩ | ⟨s2, t2, l2, e3, e4, d2⟩
      · exact .inl ⟨by rw [e3]; rfl, by rw [e4]; rfl⟩
      · rw [e3, e4]
        refine .inr ⟨_, _, l2, rfl, rfl, ?_⟩
        rw [List.flatMap_append]
        refine Declares.append ?_ d2
        cases b with
        | true => exact Declares.nil
        | false => simpa using externText_declares hp (h o i (by simp [occsIn]))
  | group o i n r ih1 ih2 =>
    intro l
    rw [GIes.externs, GIes.externsText]
    rcases ih1 (fun o i hm => h o i (by simp [occsIn, hm])) l with ⟨e1, e2⟩ | ⟨s1, t1, l1, e1, e2, d1⟩
    · exact .inl ⟨by rw [e1]; rfl, by rw [e2]; rfl⟩
    · rw [e1, e2, Option.bind_some, Option.bind_some]
      simp only
      rcases ih2 (fun o i hm => h o i (by simp [occsIn, hm])) l1 with ⟨e3, e4⟩ | ⟨s2, t2, l2, e3, e4, d2⟩
      · exact .inl ⟨by rw [e3]; rfl, by rw [e4]; rfl⟩
      · rw [e3, e4]
        exact .inr ⟨_, _, l2, rfl, rfl, List.flatMap_append ▸ d1.append d2⟩

/-! ### The generated functions -/

/-- Parameters: `A PROTO_ies B ENUM message_type C`. -/
def params (a : Forest) (p : Text) (b : Forest) (ws : List Text) (c : Forest) : Forest :=
  a ++ .word (p ++ lit "_ies") (b ++ (wordsF ws ++ .word (lit "message_type") c))

theorem params_wf {a b c : Forest} {p : Text} {ws : List Text} (ha : a.wf = true) (hb : b.wf = true) (hc : c.wf = true) : (params a p b ws c).wf = true :=
  wf_append ha (wf_append (f := .word _ b) hb (wf_append (wf_wordsF ws) (show (Forest.word _ c).wf = true from hc)))

theorem params_toks (a b c : Forest) (p : Text) (ws : List Text) : (params a p b ws c).toks =
    a.toks ++ .word (p ++ lit "_ies") :: (b.toks ++ (ws.map Tok.word ++ .word (lit "message_type") :: c.toks)) := by
  simp only [params, toks_append, toks, toks_wordsF]

theorem params_lexes {a b c : Forest} {p ta tb tc : Text} {ws : List Text} {rest : List Tok} (hp : Word p) (hws : ∀ w ∈ ws, Word w) (hne : ws ≠ [])
    (ha : Lexes ta (.sym 40 :: a.toks)) (hb : Lexes tb b.toks) (hbs : sep tb = true)
    (hc : Lexes tc (.word (lit "message_type") :: (c.toks ++ rest))) (hcs : sep tc = true) :
    Lexes (ta ++ (p ++ (lit "_ies" ++ (tb ++ (spaced ws ++ tc))))) (.sym 40 :: ((params a p b ws c).toks ++ rest)) := by
  rw [params_toks]
  rw [← List.append_assoc p]
  refine Lexes.app ha (Lexes.word (word_ies hp) (sep_append hbs) (Lexes.app hb (Lexes.words hws hne hcs hc) rfl)) ?_
  simp only [List.cons_append, List.append_assoc]

theorem params_glue {a b c : Forest} {p : Text} {ws : List Text} {rest : List Tok} {ga gb gc : Text} (hne : ws ≠ [])
    (ha : endsWord (.sym 40 :: a.toks) = true) (hga : glue (.sym 40 :: a.toks) = ga)
    (hb1 : startsWord b.toks = false) (hb0 : b.toks ≠ []) (hb2 : endsSym b.toks = true) (hgb : glue b.toks = gb)
    (hgc : glue (.word (lit "message_type") :: (c.toks ++ rest)) = gc) :
    glue (.sym 40 :: ((params a p b ws c).toks ++ rest)) = ga ++ ([32] ++ (p ++ (lit "_ies" ++ (gb ++ (spaced ws ++ ([32] ++ gc)))))) := by
  rw [params_toks]
  have e : Tok.sym 40 :: ((a.toks ++ .word (p ++ lit "_ies") :: (b.toks ++ (ws.map Tok.word ++ .word (lit "message_type") :: c.toks))) ++ rest) =
      (.sym 40 :: a.toks) ++ (.word (p ++ lit "_ies") :: (b.toks ++ (ws.map Tok.word ++ (.word (lit "message_type") :: (c.toks ++ rest))))) := by
    simp only [List.cons_append, List.append_assoc]
  rw [e, glue_endWord ha rfl, hga, glue_word (by rw [startsWord_append hb0, hb1]), glue_endSym hb2, hgb, glue_words hne rfl, hgc]
  simp only [List.append_assoc, List.cons_append, List.nil_append]

theorem word_suffix {p : Text} {m : String} (hp : Word p) (hm : (lit m).all identChar = true) : Word (p ++ lit m) := hp.append (ident_lit hm)

/-- (gtlv_gen.c:204-205) -/
theorem getCoding_proto {p e : Text} (hp : Word p) (he : TypeName e) :
    Declares (lit "\nconst struct osmo_gtlv_coding *" ++ p ++ lit "_get_msg_coding(" ++ e ++ lit " message_type);\n")
      [.other (getCodingHead p e)] := by
  obtain ⟨ws, hne, hws, rfl⟩ := he
  have := lead_coding.proto_declares (n := p ++ lit "_get_msg_coding") (tail := lit "(" ++ (spaced ws ++ lit " message_type);\n"))
    (i := wordsF ws ++ .word (lit "message_type") .nil) (out := lit "(" ++ (spaced ws ++ lit " message_type)"))
    (word_suffix hp (by decide +kernel)) (sep_append (by decide +kernel))
    (by
      rw [toks_append, toks_wordsF, List.append_assoc]
      exact Lexes.app (x := [.sym 40]) (by decide +kernel) (Lexes.words hws hne (by decide +kernel)
        (l := [.word (lit "message_type"), .sym 41, .sym 59]) (by decide +kernel)) rfl)
    (wf_append (wf_wordsF ws) rfl)
    (by
      rw [toks_append, toks_wordsF, List.append_assoc, glue, glue_words hne rfl,
        show lit " message_type)" = 32 :: glue (toks (.word (lit "message_type") .nil) ++ [.sym 41]) by decide +kernel,
        show lit "(" = [40] by decide +kernel]
      rfl)
  rw [getCodingHead, show lit "_get_msg_coding(" = lit "_get_msg_coding" ++ lit "(" by decide +kernel]
  simpa only [List.append_assoc] using this

/-- (gtlv_gen.c:371-379) -/
theorem getCoding_func {p e : Text} (hp : Word p) (he : TypeName e) :
    Declares (lit "\nconst struct osmo_gtlv_coding *" ++ p ++ lit "_get_msg_coding(" ++ e ++
        lit " message_type)\n{\n\tif (message_type >= ARRAY_SIZE(msg_defs))\n\t\treturn NULL;\n\treturn msg_defs[message_type];\n}\n")
      [.other (getCodingHead p e ++ getCodingBody)] := by
  obtain ⟨ws, hne, hws, rfl⟩ := he
  have := lead_coding.func_declares (n := p ++ lit "_get_msg_coding")
    (tail := lit "(" ++ (spaced ws ++
      lit " message_type)\n{\n\tif (message_type >= ARRAY_SIZE(msg_defs))\n\t\treturn NULL;\n\treturn msg_defs[message_type];\n}\n"))
    (i := wordsF ws ++ .word (lit "message_type") .nil)
    (b := lf "if (message_type >= ARRAY_SIZE(msg_defs)) return NULL; return msg_defs[message_type];")
    (out := lit "(" ++ (spaced ws ++ (lit " message_type)" ++ getCodingBody)))
    (word_suffix hp (by decide +kernel)) (sep_append (by decide +kernel))
    (by
      rw [toks_append, toks_wordsF, List.append_assoc]
      exact Lexes.app (x := [.sym 40]) (by decide +kernel) (Lexes.words hws hne (by decide +kernel)
        (l := toks (.word (lit "message_type") .nil) ++ .sym 41 :: .sym 123 ::
          ((lf "if (message_type >= ARRAY_SIZE(msg_defs)) return NULL; return msg_defs[message_type];").toks ++ [.sym 125])) (by decide +kernel)) rfl)
    (wf_append (wf_wordsF ws) rfl) (by decide +kernel)
    (by
      rw [toks_append, toks_wordsF, List.append_assoc, glue, glue_words hne rfl,
        show lit " message_type)" ++ getCodingBody = 32 :: glue (toks (.word (lit "message_type") .nil) ++ .sym 41 :: .sym 123 ::
          ((lf "if (message_type >= ARRAY_SIZE(msg_defs)) return NULL; return msg_defs[message_type];").toks ++ [.sym 125])) by decide +kernel,
        show lit "(" = [40] by decide +kernel]
      rfl)
  rw [getCodingHead, show lit "_get_msg_coding(" = lit "_get_msg_coding" ++ lit "(" by decide +kernel]
  simpa only [List.append_assoc] using this

/-- A function with parameters. -/
theorem params_proto {a b c : Forest} {p ta tb tc ga gb gc : Text} {ws : List Text} {m : String} (hp : Word p) (hws : ∀ w ∈ ws, Word w)
    (hne : ws ≠ []) (hm : (lit m).all identChar = true) (hs : sep ta = true)
    (ha : Lexes ta (.sym 40 :: a.toks)) (hb : Lexes tb b.toks) (hbs : sep tb = true)
    (hc : Lexes tc (.word (lit "message_type") :: (c.toks ++ [.sym 41, .sym 59]))) (hcs : sep tc = true)
    (hwf : (a.wf && b.wf && c.wf) = true) (ha' : endsWord (.sym 40 :: a.toks) = true) (hga : glue (.sym 40 :: a.toks) ++ [32] = ga)
    (hb' : (!startsWord b.toks && endsSym b.toks && decide (b.toks ≠ [])) = true) (hgb : glue b.toks = gb)
    (hgc : 32 :: glue (.word (lit "message_type") :: (c.toks ++ [.sym 41])) = gc) :
    Declares (lit "\nint " ++ (p ++ (lit m ++ (ta ++ (p ++ (lit "_ies" ++ (tb ++ (spaced ws ++ tc))))))))
      [.other (lit "int " ++ (p ++ (lit m ++ (ga ++ (p ++ (lit "_ies" ++ (gb ++ (spaced ws ++ gc))))))))] := by
  simp only [Bool.and_eq_true, Bool.not_eq_true', decide_eq_true_eq] at hwf hb'
  have := lead_int.proto_declares (n := p ++ lit m) (tail := ta ++ (p ++ (lit "_ies" ++ (tb ++ (spaced ws ++ tc)))))
    (i := params a p b ws c) (out := ga ++ (p ++ (lit "_ies" ++ (gb ++ (spaced ws ++ gc)))))
    (word_suffix hp hm) (sep_append hs) (params_lexes hp hws hne ha hb hbs hc hcs) (params_wf hwf.1.1 hwf.1.2 hwf.2)
    (by
      rw [params_glue hne ha' rfl hb'.1.1 hb'.2 hb'.1.2 hgb rfl, ← hga, ← hgc]
      simp only [List.append_assoc, List.cons_append, List.nil_append])
  simpa only [List.append_assoc] using this

/-- `return CALL(D PROTO_get_msg_coding(message_type) E);` -/
def bodyF (call : Text) (d : Forest) (p : Text) (e : Forest) : Forest :=
  .word (lit "return") (.word call (.grp 40 (d ++ .word (p ++ lit "_get_msg_coding") (.grp 40 (.word (lit "message_type") .nil) e)) (.sym 59 .nil)))

theorem bodyF_toks (call p : Text) (d e : Forest) : (bodyF call d p e).toks =
    [.word (lit "return"), .word call, .sym 40] ++ (d.toks ++ .word (p ++ lit "_get_msg_coding") ::
      ([.sym 40, .word (lit "message_type"), .sym 41] ++ (e.toks ++ [.sym 41, .sym 59]))) := by
  simp only [bodyF, toks, toks_append, List.append_assoc, List.cons_append, List.nil_append]
  rfl

/-- A function with parameters and a body. -/
theorem params_func {a b c d e : Forest} {p call ta tb tc te ga gb gc ge : Text} {ws : List Text} {m : String} (hp : Word p)
    (hws : ∀ w ∈ ws, Word w) (hne : ws ≠ []) (hm : (lit m).all identChar = true) (hs : sep ta = true)
    (ha : Lexes ta (.sym 40 :: a.toks)) (hb : Lexes tb b.toks) (hbs : sep tb = true)
    (hc : Lexes tc (.word (lit "message_type") :: (c.toks ++ ([.sym 41, .sym 123, .word (lit "return"), .word call, .sym 40] ++ d.toks))))
    (hcs : sep tc = true)
    (he : Lexes te ([.sym 40, .word (lit "message_type"), .sym 41] ++ (e.toks ++ [.sym 41, .sym 59, .sym 125]))) (hes : sep te = true)
    (hwf : (a.wf && b.wf && c.wf && d.wf && e.wf) = true) (ha' : endsWord (.sym 40 :: a.toks) = true)
    (hga : glue (.sym 40 :: a.toks) ++ [32] = ga)
    (hb' : (!startsWord b.toks && endsSym b.toks && decide (b.toks ≠ [])) = true) (hgb : glue b.toks = gb)
    (hc' : endsSym (.word (lit "message_type") :: (c.toks ++ ([.sym 41, .sym 123, .word (lit "return"), .word call, .sym 40] ++ d.toks))) = true)
    (hgc : 32 :: glue (.word (lit "message_type") :: (c.toks ++ ([.sym 41, .sym 123, .word (lit "return"), .word call, .sym 40] ++ d.toks))) = gc)
    (hge : glue ([.sym 40, .word (lit "message_type"), .sym 41] ++ (e.toks ++ [.sym 41, .sym 59, .sym 125])) = ge) :
    Declares (lit "\nint " ++ (p ++ (lit m ++ (ta ++ (p ++ (lit "_ies" ++ (tb ++ (spaced ws ++ (tc ++ (p ++ (lit "_get_msg_coding" ++ te)))))))))))
      [.other (lit "int " ++ (p ++ (lit m ++ (ga ++ (p ++ (lit "_ies" ++ (gb ++ (spaced ws ++ (gc ++ (p ++ (lit "_get_msg_coding" ++ ge)))))))))))] := by
  simp only [Bool.and_eq_true, Bool.not_eq_true', decide_eq_true_eq] at hwf hb'
  obtain ⟨⟨⟨⟨w1, w2⟩, w3⟩, w4⟩, w5⟩ := hwf
  have hbody : (bodyF call d p e).wf = true := by
    simp only [bodyF, wf, Bool.and_eq_true, Bool.and_true]
    refine ⟨⟨rfl, wf_append w4 ?_⟩, ⟨rfl, rfl⟩⟩
    simp only [wf, w5]
    rfl
  have hrest : Tok.word (lit "message_type") :: (c.toks ++ .sym 41 :: .sym 123 :: ((bodyF call d p e).toks ++ [.sym 125])) =
      (.word (lit "message_type") :: (c.toks ++ ([.sym 41, .sym 123, .word (lit "return"), .word call, .sym 40] ++ d.toks))) ++
      .word (p ++ lit "_get_msg_coding") :: ([.sym 40, .word (lit "message_type"), .sym 41] ++ (e.toks ++ [.sym 41, .sym 59, .sym 125])) := by
    rw [bodyF_toks]
    simp only [List.append_assoc, List.cons_append, List.nil_append]
  have := lead_int.func_declares (n := p ++ lit m)
    (tail := ta ++ (p ++ (lit "_ies" ++ (tb ++ (spaced ws ++ (tc ++ (p ++ (lit "_get_msg_coding" ++ te))))))))
    (i := params a p b ws c) (b := bodyF call d p e)
    (out := ga ++ (p ++ (lit "_ies" ++ (gb ++ (spaced ws ++ (gc ++ (p ++ (lit "_get_msg_coding" ++ ge))))))))
    (word_suffix hp hm) (sep_append hs)
    (by
      refine params_lexes hp hws hne ha hb hbs ?_ (sep_append hcs)
      rw [hrest, ← List.append_assoc p]
      exact Lexes.app hc (Lexes.word (word_suffix hp (by decide +kernel)) hes he) rfl)
    (params_wf w1 w2 w3) hbody
    (by
      have hw : glue (Tok.word (p ++ lit "_get_msg_coding") ::
          ([Tok.sym 40, Tok.word (lit "message_type"), Tok.sym 41] ++ (e.toks ++ [Tok.sym 41, Tok.sym 59, Tok.sym 125]))) =
          p ++ lit "_get_msg_coding" ++ ge := by rw [← hge]; exact glue_word rfl
      rw [params_glue hne ha' rfl hb'.1.1 hb'.2 hb'.1.2 hgb rfl, ← hga, ← hgc, hrest, glue_endSym hc', hw]
      simp only [List.append_assoc, List.cons_append, List.nil_append])
  simpa only [List.append_assoc] using this

/-- (gtlv_gen.c:206-210) -/
theorem ies_decode_proto {p e : Text} (hp : Word p) (he : TypeName e) :
    Declares (lit "\nint " ++ p ++ lit "_ies_decode(union " ++ p ++ lit "_ies *dst, struct osmo_gtlv_load *gtlv, bool tlv_ordered,\n\t" ++ e ++ lit " message_type, osmo_gtlv_err_cb err_cb, void *err_cb_data, const struct value_string *iei_strs);\n")
      [.other (iesDecodeHead p e)] := by
  obtain ⟨ws, hne, hws, rfl⟩ := he
  have := params_proto (m := "_ies_decode") (ta := lit "(union ") (a := lf "union") (tb := lit " *dst, struct osmo_gtlv_load *gtlv, bool tlv_ordered,\n\t") (b := lf "*dst, struct osmo_gtlv_load *gtlv, bool tlv_ordered,")
    (tc := lit " message_type, osmo_gtlv_err_cb err_cb, void *err_cb_data, const struct value_string *iei_strs);\n") (c := lf ", osmo_gtlv_err_cb err_cb, void *err_cb_data, const struct value_string *iei_strs") (ga := lit "(union ") (gb := lit "*dst,struct osmo_gtlv_load*gtlv,bool tlv_ordered,")
    (gc := lit " message_type,osmo_gtlv_err_cb err_cb,void*err_cb_data,const struct value_string*iei_strs)") hp hws hne
    (by decide +kernel) (by decide +kernel) (by decide +kernel) (by decide +kernel) (by decide +kernel) (by decide +kernel) (by decide +kernel)
    (by decide +kernel) (by decide +kernel) (by decide +kernel) (by decide +kernel) (by decide +kernel) (by decide +kernel)
  rw [iesDecodeHead, show lit "_ies_decode(union " = lit "_ies_decode" ++ lit "(union " by decide +kernel,
    show lit "_ies *dst, struct osmo_gtlv_load *gtlv, bool tlv_ordered,\n\t" = lit "_ies" ++ lit " *dst, struct osmo_gtlv_load *gtlv, bool tlv_ordered,\n\t" by decide +kernel,
    show lit "_ies*dst,struct osmo_gtlv_load*gtlv,bool tlv_ordered," = lit "_ies" ++ lit "*dst,struct osmo_gtlv_load*gtlv,bool tlv_ordered," by decide +kernel]
  simpa only [List.append_assoc] using this

/-- (gtlv_gen.c:381-389) -/
theorem ies_decode_func {p e : Text} (hp : Word p) (he : TypeName e) :
    Declares (lit "\nint " ++ p ++ lit "_ies_decode(union " ++ p ++ lit "_ies *dst, struct osmo_gtlv_load *gtlv, bool tlv_ordered,\n\t" ++ e ++
        lit " message_type,\n\tosmo_gtlv_err_cb err_cb, void *err_cb_data, const struct value_string *iei_strs)\n{\n\treturn osmo_gtlvs_decode(dst, sizeof(*dst), 0, gtlv, tlv_ordered, " ++ p ++ lit "_get_msg_coding(message_type),\n\t\terr_cb, err_cb_data, iei_strs);\n}\n")
      [.other (iesDecodeHead p e ++ iesDecodeBody p)] := by
  obtain ⟨ws, hne, hws, rfl⟩ := he
  have := params_func (m := "_ies_decode") (ta := lit "(union ") (a := lf "union") (tb := lit " *dst, struct osmo_gtlv_load *gtlv, bool tlv_ordered,\n\t") (b := lf "*dst, struct osmo_gtlv_load *gtlv, bool tlv_ordered,")
    (tc := lit " message_type,\n\tosmo_gtlv_err_cb err_cb, void *err_cb_data, const struct value_string *iei_strs)\n{\n\treturn osmo_gtlvs_decode(dst, sizeof(*dst), 0, gtlv, tlv_ordered, ") (c := lf ", osmo_gtlv_err_cb err_cb, void *err_cb_data, const struct value_string *iei_strs")
    (call := lit "osmo_gtlvs_decode") (d := lf "dst, sizeof(*dst), 0, gtlv, tlv_ordered,") (te := lit "(message_type),\n\t\terr_cb, err_cb_data, iei_strs);\n}\n") (e := lf ", err_cb, err_cb_data, iei_strs")
    (ga := lit "(union ") (gb := lit "*dst,struct osmo_gtlv_load*gtlv,bool tlv_ordered,")
    (gc := (lit " message_type,osmo_gtlv_err_cb err_cb,void*err_cb_data,const struct value_string*iei_strs)" ++ lit "{return osmo_gtlvs_decode(dst,sizeof(*dst),0,gtlv,tlv_ordered,")) (ge := lit "(message_type),err_cb,err_cb_data,iei_strs);}") hp hws hne
    (by decide +kernel) (by decide +kernel) (by decide +kernel) (by decide +kernel) (by decide +kernel) (by decide +kernel) (by decide +kernel)
    (by decide +kernel) (by decide +kernel) (by decide +kernel) (by decide +kernel) (by decide +kernel) (by decide +kernel) (by decide +kernel)
    (by decide +kernel) (by decide +kernel) (by decide +kernel)
  rw [iesDecodeHead, iesDecodeBody, show lit "_ies_decode(union " = lit "_ies_decode" ++ lit "(union " by decide +kernel,
    show lit "_ies *dst, struct osmo_gtlv_load *gtlv, bool tlv_ordered,\n\t" = lit "_ies" ++ lit " *dst, struct osmo_gtlv_load *gtlv, bool tlv_ordered,\n\t" by decide +kernel,
    show lit "_ies*dst,struct osmo_gtlv_load*gtlv,bool tlv_ordered," = lit "_ies" ++ lit "*dst,struct osmo_gtlv_load*gtlv,bool tlv_ordered," by decide +kernel,
    show lit "_get_msg_coding(message_type),\n\t\terr_cb, err_cb_data, iei_strs);\n}\n" = lit "_get_msg_coding" ++ lit "(message_type),\n\t\terr_cb, err_cb_data, iei_strs);\n}\n" by decide +kernel,
    show lit "_get_msg_coding(message_type),err_cb,err_cb_data,iei_strs);}" = lit "_get_msg_coding" ++ lit "(message_type),err_cb,err_cb_data,iei_strs);}" by decide +kernel]
  simpa only [List.append_assoc] using this

/-- (gtlv_gen.c:211-214) -/
theorem ies_encode_proto {p e : Text} (hp : Word p) (he : TypeName e) :
    Declares (lit "\nint " ++ p ++ lit "_ies_encode(struct osmo_gtlv_put *gtlv, const union " ++ p ++ lit "_ies *src,\n\t" ++ e ++ lit " message_type, osmo_gtlv_err_cb err_cb, void *err_cb_data, const struct value_string *iei_strs);\n")
      [.other (iesEncodeHead p e)] := by
  obtain ⟨ws, hne, hws, rfl⟩ := he
  have := params_proto (m := "_ies_encode") (ta := lit "(struct osmo_gtlv_put *gtlv, const union ") (a := lf "struct osmo_gtlv_put *gtlv, const union") (tb := lit " *src,\n\t") (b := lf "*src,")
    (tc := lit " message_type, osmo_gtlv_err_cb err_cb, void *err_cb_data, const struct value_string *iei_strs);\n") (c := lf ", osmo_gtlv_err_cb err_cb, void *err_cb_data, const struct value_string *iei_strs") (ga := lit "(struct osmo_gtlv_put*gtlv,const union ") (gb := lit "*src,")
    (gc := lit " message_type,osmo_gtlv_err_cb err_cb,void*err_cb_data,const struct value_string*iei_strs)") hp hws hne
    (by decide +kernel) (by decide +kernel) (by decide +kernel) (by decide +kernel) (by decide +kernel) (by decide +kernel) (by decide +kernel)
    (by decide +kernel) (by decide +kernel) (by decide +kernel) (by decide +kernel) (by decide +kernel) (by decide +kernel)
  rw [iesEncodeHead, show lit "_ies_encode(struct osmo_gtlv_put *gtlv, const union " = lit "_ies_encode" ++ lit "(struct osmo_gtlv_put *gtlv, const union " by decide +kernel,
    show lit "_ies *src,\n\t" = lit "_ies" ++ lit " *src,\n\t" by decide +kernel,
    show lit "_ies_encode(struct osmo_gtlv_put*gtlv,const union " = lit "_ies_encode" ++ lit "(struct osmo_gtlv_put*gtlv,const union " by decide +kernel,
    show lit "_ies*src," = lit "_ies" ++ lit "*src," by decide +kernel]
  simpa only [List.append_assoc] using this

/-- (gtlv_gen.c:390-396) -/
theorem ies_encode_func {p e : Text} (hp : Word p) (he : TypeName e) :
    Declares (lit "\nint " ++ p ++ lit "_ies_encode(struct osmo_gtlv_put *gtlv, const union " ++ p ++ lit "_ies *src,\n\t" ++ e ++
        lit " message_type, osmo_gtlv_err_cb err_cb, void *err_cb_data, const struct value_string *iei_strs)\n{\n\treturn osmo_gtlvs_encode(gtlv, src, sizeof(*src), 0, " ++ p ++ lit "_get_msg_coding(message_type),\n\t\terr_cb, err_cb_data, iei_strs);\n}\n")
      [.other (iesEncodeHead p e ++ iesEncodeBody p)] := by
  obtain ⟨ws, hne, hws, rfl⟩ := he
  have := params_func (m := "_ies_encode") (ta := lit "(struct osmo_gtlv_put *gtlv, const union ") (a := lf "struct osmo_gtlv_put *gtlv, const union") (tb := lit " *src,\n\t") (b := lf "*src,")
    (tc := lit " message_type, osmo_gtlv_err_cb err_cb, void *err_cb_data, const struct value_string *iei_strs)\n{\n\treturn osmo_gtlvs_encode(gtlv, src, sizeof(*src), 0, ") (c := lf ", osmo_gtlv_err_cb err_cb, void *err_cb_data, const struct value_string *iei_strs")
    (call := lit "osmo_gtlvs_encode") (d := lf "gtlv, src, sizeof(*src), 0,") (te := lit "(message_type),\n\t\terr_cb, err_cb_data, iei_strs);\n}\n") (e := lf ", err_cb, err_cb_data, iei_strs")
    (ga := lit "(struct osmo_gtlv_put*gtlv,const union ") (gb := lit "*src,")
    (gc := (lit " message_type,osmo_gtlv_err_cb err_cb,void*err_cb_data,const struct value_string*iei_strs)" ++ lit "{return osmo_gtlvs_encode(gtlv,src,sizeof(*src),0,")) (ge := lit "(message_type),err_cb,err_cb_data,iei_strs);}") hp hws hne
    (by decide +kernel) (by decide +kernel) (by decide +kernel) (by decide +kernel) (by decide +kernel) (by decide +kernel) (by decide +kernel)
    (by decide +kernel) (by decide +kernel) (by decide +kernel) (by decide +kernel) (by decide +kernel) (by decide +kernel) (by decide +kernel)
    (by decide +kernel) (by decide +kernel) (by decide +kernel)
  rw [iesEncodeHead, iesEncodeBody, show lit "_ies_encode(struct osmo_gtlv_put *gtlv, const union " = lit "_ies_encode" ++ lit "(struct osmo_gtlv_put *gtlv, const union " by decide +kernel,
    show lit "_ies *src,\n\t" = lit "_ies" ++ lit " *src,\n\t" by decide +kernel,
    show lit "_ies_encode(struct osmo_gtlv_put*gtlv,const union " = lit "_ies_encode" ++ lit "(struct osmo_gtlv_put*gtlv,const union " by decide +kernel,
    show lit "_ies*src," = lit "_ies" ++ lit "*src," by decide +kernel,
    show lit "_get_msg_coding(message_type),\n\t\terr_cb, err_cb_data, iei_strs);\n}\n" = lit "_get_msg_coding" ++ lit "(message_type),\n\t\terr_cb, err_cb_data, iei_strs);\n}\n" by decide +kernel,
    show lit "_get_msg_coding(message_type),err_cb,err_cb_data,iei_strs);}" = lit "_get_msg_coding" ++ lit "(message_type),err_cb,err_cb_data,iei_strs);}" by decide +kernel]
  simpa only [List.append_assoc] using this

/-- (gtlv_gen.c:215-219) -/
theorem ies_encode_to_str_proto {p e : Text} (hp : Word p) (he : TypeName e) :
    Declares (lit "\nint " ++ p ++ lit "_ies_encode_to_str(char *buf, size_t buflen, const union " ++ p ++ lit "_ies *src,\n\t" ++ e ++ lit " message_type, const struct value_string *iei_strs);\n")
      [.other (iesToStrHead p e)] := by
  obtain ⟨ws, hne, hws, rfl⟩ := he
  have := params_proto (m := "_ies_encode_to_str") (ta := lit "(char *buf, size_t buflen, const union ") (a := lf "char *buf, size_t buflen, const union") (tb := lit " *src,\n\t") (b := lf "*src,")
    (tc := lit " message_type, const struct value_string *iei_strs);\n") (c := lf ", const struct value_string *iei_strs") (ga := lit "(char*buf,size_t buflen,const union ") (gb := lit "*src,")
    (gc := lit " message_type,const struct value_string*iei_strs)") hp hws hne
    (by decide +kernel) (by decide +kernel) (by decide +kernel) (by decide +kernel) (by decide +kernel) (by decide +kernel) (by decide +kernel)
    (by decide +kernel) (by decide +kernel) (by decide +kernel) (by decide +kernel) (by decide +kernel) (by decide +kernel)
  rw [iesToStrHead, show lit "_ies_encode_to_str(char *buf, size_t buflen, const union " = lit "_ies_encode_to_str" ++ lit "(char *buf, size_t buflen, const union " by decide +kernel,
    show lit "_ies *src,\n\t" = lit "_ies" ++ lit " *src,\n\t" by decide +kernel,
    show lit "_ies_encode_to_str(char*buf,size_t buflen,const union " = lit "_ies_encode_to_str" ++ lit "(char*buf,size_t buflen,const union " by decide +kernel,
    show lit "_ies*src," = lit "_ies" ++ lit "*src," by decide +kernel]
  simpa only [List.append_assoc] using this

/-- (gtlv_gen.c:397-402) -/
theorem ies_encode_to_str_func {p e : Text} (hp : Word p) (he : TypeName e) :
    Declares (lit "\nint " ++ p ++ lit "_ies_encode_to_str(char *buf, size_t buflen, const union " ++ p ++ lit "_ies *src,\n\t" ++ e ++
        lit " message_type, const struct value_string *iei_strs)\n{\n\treturn osmo_gtlvs_encode_to_str_buf(buf, buflen, src, sizeof(*src), 0, " ++ p ++ lit "_get_msg_coding(message_type), iei_strs);\n}\n")
      [.other (iesToStrHead p e ++ iesToStrBody p)] := by
  obtain ⟨ws, hne, hws, rfl⟩ := he
  have := params_func (m := "_ies_encode_to_str") (ta := lit "(char *buf, size_t buflen, const union ") (a := lf "char *buf, size_t buflen, const union") (tb := lit " *src,\n\t") (b := lf "*src,")
    (tc := lit " message_type, const struct value_string *iei_strs)\n{\n\treturn osmo_gtlvs_encode_to_str_buf(buf, buflen, src, sizeof(*src), 0, ") (c := lf ", const struct value_string *iei_strs")
    (call := lit "osmo_gtlvs_encode_to_str_buf") (d := lf "buf, buflen, src, sizeof(*src), 0,") (te := lit "(message_type), iei_strs);\n}\n") (e := lf ", iei_strs")
    (ga := lit "(char*buf,size_t buflen,const union ") (gb := lit "*src,")
    (gc := (lit " message_type,const struct value_string*iei_strs)" ++ lit "{return osmo_gtlvs_encode_to_str_buf(buf,buflen,src,sizeof(*src),0,")) (ge := lit "(message_type),iei_strs);}") hp hws hne
    (by decide +kernel) (by decide +kernel) (by decide +kernel) (by decide +kernel) (by decide +kernel) (by decide +kernel) (by decide +kernel)
    (by decide +kernel) (by decide +kernel) (by decide +kernel) (by decide +kernel) (by decide +kernel) (by decide +kernel) (by decide +kernel)
    (by decide +kernel) (by decide +kernel) (by decide +kernel)
  rw [iesToStrHead, iesToStrBody, show lit "_ies_encode_to_str(char *buf, size_t buflen, const union " = lit "_ies_encode_to_str" ++ lit "(char *buf, size_t buflen, const union " by decide +kernel,
    show lit "_ies *src,\n\t" = lit "_ies" ++ lit " *src,\n\t" by decide +kernel,
    show lit "_ies_encode_to_str(char*buf,size_t buflen,const union " = lit "_ies_encode_to_str" ++ lit "(char*buf,size_t buflen,const union " by decide +kernel,
    show lit "_ies*src," = lit "_ies" ++ lit "*src," by decide +kernel,
    show lit "_get_msg_coding(message_type), iei_strs);\n}\n" = lit "_get_msg_coding" ++ lit "(message_type), iei_strs);\n}\n" by decide +kernel,
    show lit "_get_msg_coding(message_type),iei_strs);}" = lit "_get_msg_coding" ++ lit "(message_type),iei_strs);}" by decide +kernel]
  simpa only [List.append_assoc] using this

end Verif
