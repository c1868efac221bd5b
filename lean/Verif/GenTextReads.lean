/-
What the pieces of text that gtlv_gen.c puts out read as.
-/
import Verif.GenTextLemmas

namespace Verif
open Spec Spec.Forest

/-! ### Members and structs -/

theorem wordsF_append (a b : List Text) : wordsF (a ++ b) = wordsF a ++ wordsF b := by
  induction a with
  | nil => rfl
  | cons w a ih => simp only [List.cons_append, wordsF, word_append, ih]

theorem words_all (ws : List Text) : (wordsF ws).words = (ws, .nil) := by
  have := words_wordsF ws .nil rfl rfl
  rwa [append_nil'] at this

theorem rev_cons {α : Type} {ws : List α} (h : ws ≠ []) : ∃ t ts, ws.reverse = t :: ts := by
  cases e : ws.reverse with
  | nil => exact absurd (by simpa using e) h
  | cons t ts => exact ⟨t, ts, rfl⟩

theorem membs_of {t ws name} (hne : ws ≠ []) (h : Lexes t (ws.map Tok.word ++ [.word name, .sym 59])) :
    HasMembs t [{ type := spaced ws, name }] := by
  refine ⟨wordsF ws ++ .word name (.sym 59 .nil), [wordsF (ws ++ [name])], ⟨?_, wf_append (wf_wordsF ws) rfl⟩, ?_, ?_⟩
  · rw [toks_append, toks_wordsF]; exact h
  · intro g
    rw [append_assoc', semicolons_words, wordsF_append]
    rfl
  · obtain ⟨x, xs, hr⟩ := rev_cons hne
    have hx : ws = (x :: xs).reverse := by rw [← hr, List.reverse_reverse]
    have : memberOf (wordsF (ws ++ [name])) = some { type := spaced ws, name } := by
      rw [memberOf, words_all]
      simp only [List.reverse_append, List.reverse_cons, List.reverse_nil, List.nil_append, List.cons_append, hr]
      rw [hx]
      simp
    simp [this]

theorem membs_dim {t ws name d n} (hne : ws ≠ []) (hd : decimal d = some n)
    (h : Lexes t (ws.map Tok.word ++ [.word name, .sym 91, .word d, .sym 93, .sym 59])) :
    HasMembs t [{ type := spaced ws, name, dim := some n }] := by
  refine ⟨wordsF ws ++ .word name (.grp 91 (.word d .nil) (.sym 59 .nil)), [wordsF (ws ++ [name]) ++ .grp 91 (.word d .nil) .nil],
    ⟨?_, wf_append (wf_wordsF ws) rfl⟩, ?_, ?_⟩
  · rw [toks_append, toks_wordsF]; exact h
  · intro g
    rw [append_assoc', semicolons_words, wordsF_append]
    simp only [word_append, grp_append, sym_append, nil_append', Forest.semicolons, if_true]
    congr 1
  · obtain ⟨x, xs, hr⟩ := rev_cons hne
    have hx : ws = (x :: xs).reverse := by rw [← hr, List.reverse_reverse]
    have : memberOf (wordsF (ws ++ [name]) ++ .grp 91 (.word d .nil) .nil) = some { type := spaced ws, name, dim := some n } := by
      rw [memberOf, words_wordsF _ _ rfl rfl]
      simp only [List.reverse_append, List.reverse_cons, List.reverse_nil, List.nil_append, List.cons_append, hr, hd]
      rw [hx]
      simp
    simp [this]

theorem declares_aggregate {a t b ws ds} (hne : ws ≠ []) (ha : Lexes a (ws.map Tok.word ++ [.sym 123])) (ht : HasMembs t ds)
    (hb : Lexes b [.sym 125, .sym 59]) : Declares (a ++ (t ++ b)) [.aggregate (spaced ws) ds] := by
  obtain ⟨f, hf, hm⟩ := ht.read
  refine Declares.one (f := wordsF ws ++ .grp 123 f (.sym 59 .nil)) (d := wordsF ws ++ .grp 123 f .nil) ?_ ?_ ?_
  · exact ReadsAs.wrap (o := 123) rfl (by rw [toks_wordsF]; exact ha) (wf_wordsF ws) hf hb rfl
  · refine ⟨?_, fun g hg => ?_⟩
    · cases ws with
      | nil => exact absurd rfl hne
      | cons w ws => rfl
    · rw [append_assoc', declarations_words]
      simp only [grp_append, sym_append, nil_append', Forest.declarations, Forest.semicolon, beq_self_eq_true, Bool.true_eq_false,
        and_false, if_false, if_true]
      rfl
  · cases ws with
    | nil => exact absurd rfl hne
    | cons w ws =>
      rw [itemOf, words_wordsF _ _ rfl rfl]
      simp only
      cases hs : f.semicolons .nil with
      | none => rw [hs] at hm; cases hm
      | some l =>
        rw [hs, Option.bind_some] at hm
        simp [hm]

theorem lit_present : lit "_present;\n" = lit "_present" ++ lit ";\n" := by decide +kernel

theorem ident_lit {s : String} (h : (lit s).all identChar = true) : ∀ c ∈ lit s, identChar c = true := List.all_eq_true.1 h

/-- (gtlv_gen.c:98-105) -/
theorem membText_has {c : GCfg} {o : GOcc} {i : GInfo} (hn : Word o.name) (ht : TypeName (c.decodedType o i)) :
    HasMembs (c.membText o i) (membDecls ⟨o.optional, c.decodedType o i, o.name, o.multi⟩) := by
  obtain ⟨ws, hne, hws, hty⟩ := ht
  rw [GCfg.membText, membDecls]
  simp only [List.append_assoc]
  refine HasMembs.append ?_ ?_
  · cases o.optional with
    | false => exact HasMembs.nil
    | true =>
      simp only [if_true]
      refine membs_of (ws := [lit "bool"]) (by simp) ?_
      rw [lit_present, ← List.append_assoc o.name]
      refine Lexes.app (x := [.word (lit "bool")]) (by decide +kernel)
        (Lexes.word (hn.append (ident_lit (by decide +kernel))) (by decide +kernel) (l := [.sym 59]) (by decide +kernel)) rfl
  · rw [hty]
    have hsp : sep (lit " ") = true := by decide +kernel
    by_cases hm : o.multi = 0
    · rw [if_neg (by simp [hm]), if_pos hm, List.nil_append]
      refine membs_of hne ?_
      refine Lexes.app (x := []) (by decide +kernel) (Lexes.words hws hne (sep_append hsp) (l := [.word o.name, .sym 59]) ?_) rfl
      exact Lexes.app (x := []) (by decide +kernel) (Lexes.word hn (by decide +kernel) (l := [.sym 59]) (by decide +kernel)) rfl
    · rw [if_pos (by simpa using hm), if_neg hm]
      have e : lit "\t" ++ (spaced ws ++ (lit " " ++ (o.name ++ ((lit "[" ++ (dec o.multi ++ (lit "];\n" ++
            (lit "\tunsigned int " ++ (o.name ++ lit "_count"))))) ++ lit ";\n")))) =
          (lit "\t" ++ (spaced ws ++ (lit " " ++ (o.name ++ (lit "[" ++ (dec o.multi ++ lit "];\n")))))) ++
            (lit "\tunsigned int " ++ ((o.name ++ lit "_count") ++ lit ";\n")) := by simp only [List.append_assoc]
      rw [e]
      refine HasMembs.append (x := [_]) (y := [_]) (membs_dim hne (decimal_dec o.multi) ?_) (membs_of (ws := [lit "unsigned", lit "int"]) (by simp) ?_)
      · refine Lexes.app (x := []) (by decide +kernel) (Lexes.words hws hne (sep_append hsp)
          (l := [.word o.name, .sym 91, .word (dec o.multi), .sym 93, .sym 59]) ?_) rfl
        refine Lexes.app (x := []) (by decide +kernel) (Lexes.word hn (sep_append (by decide +kernel))
          (l := [.sym 91, .word (dec o.multi), .sym 93, .sym 59]) ?_) rfl
        exact Lexes.app (x := [.sym 91]) (by decide +kernel) (Lexes.word (word_dec _) (by decide +kernel)
          (l := [.sym 93, .sym 59]) (by decide +kernel)) rfl
      · exact Lexes.app (x := [.word (lit "unsigned"), .word (lit "int")]) (by decide +kernel)
          (Lexes.word (hn.append (ident_lit (by decide +kernel))) (by decide +kernel) (l := [.sym 59]) (by decide +kernel)) rfl

/-- (gtlv_gen.c:94-107) -/
theorem membersText_has {c : GCfg} (g : GIes) (h : ∀ o i, (o, i) ∈ occsIn g → Word o.name ∧ TypeName (c.decodedType o i)) :
    HasMembs (g.membersText c) ((g.members c).flatMap membDecls) := by
  induction g with
  | nil => exact HasMembs.nil
  | ie o i r ih =>
    obtain ⟨h1, h2⟩ := h o i (by simp [occsIn])
    exact (membText_has h1 h2).append (ih fun o i hm => h o i (by simp [occsIn, hm]))
  | group o i n r _ ih =>
    obtain ⟨h1, h2⟩ := h o i (by simp [occsIn])
    exact (membText_has h1 h2).append (ih fun o i hm => h o i (by simp [occsIn, hm]))

/-- The struct of an IE (gtlv_gen.c:135-141). -/
theorem struct_declares {c : GCfg} {ty s : Text} {n : GIes} (ht : TypeName ty) (hs : Lexes s [])
    (h : ∀ o i, (o, i) ∈ occsIn n → Word o.name ∧ TypeName (c.decodedType o i)) :
    Declares (lit "\n" ++ s ++ (ty ++ lit " {\n") ++ n.membersText c ++ lit "};\n") [structItem ⟨ty, n.members c⟩] := by
  obtain ⟨ws, hne, hws, rfl⟩ := ht
  rw [List.append_assoc _ (n.membersText c)]
  refine declares_aggregate hne ?_ (membersText_has n h) (by decide +kernel)
  rw [List.append_assoc]
  exact Lexes.app (x := []) (by decide +kernel) (Lexes.app hs (Lexes.words hws hne (by decide +kernel) (by decide +kernel)) rfl) rfl

theorem specComment_lexes {c : GCfg} {i : GInfo} (h : ∀ s, i.specRef = some s → ∃ p, c.specRefPrefix = some p ∧ InComment (p ++ s)) :
    ∃ t, c.specComment i = some t ∧ Lexes t [] := by
  rw [GCfg.specComment]
  cases hs : i.specRef with
  | none => exact ⟨[], rfl, Lexes.nil⟩
  | some s =>
    obtain ⟨p, hp, hc⟩ := h s hs
    simp only [hp, Option.bind_some]
    refine ⟨_, rfl, ?_⟩
    have := Lexes.comment hc Lexes.nil
    simpa only [List.append_assoc, List.append_nil] using this

/-- (gtlv_gen.c:110-143) -/
theorem structsText_declares {c : GCfg} (g : GIes) (h : ∀ o i, (o, i) ∈ occsIn g → Word o.name ∧ TypeName (c.decodedType o i))
    (hs : ∀ o i n s, (o, i, n) ∈ groupsIn g → i.specRef = some s → ∃ p, c.specRefPrefix = some p ∧ InComment (p ++ s)) :
    ∀ l, (g.structs c l = none ∧ g.structsText c l = none) ∨
      ∃ ss t l', g.structs c l = some (ss, l') ∧ g.structsText c l = some (t, l') ∧ Declares t (ss.map structItem) := by
  induction g with
  | nil => intro l; exact .inr ⟨[], [], l, rfl, rfl, Declares.nil⟩
  | ie o i r ih =>
    exact ih (fun o i hm => h o i (by simp [occsIn, hm])) fun o i n s hm => hs o i n s (by simpa [groupsIn] using hm)
  | group o i n r ih1 ih2 =>
    intro l
    rw [GIes.structs, GIes.structsText]
    rcases ih1 (fun o i hm => h o i (by simp [occsIn, hm])) (fun o i n s hm => hs o i n s (by simp [groupsIn, hm])) l with
      ⟨e1, e2⟩ | ⟨s1, t1, l1, e1, e2, d1⟩
    · exact .inl ⟨by rw [e1]; rfl, by rw [e2]; rfl⟩
    · rw [e1, e2, Option.bind_some, Option.bind_some]
      simp only
      cases hseen : seen l1 (c.decodedType o i) none with
      | none => exact .inl ⟨rfl, rfl⟩
      | some x =>
        obtain ⟨b, l2⟩ := x
        simp only [Option.bind_some]
        obtain ⟨cm, hcm, hq⟩ := specComment_lexes (c := c) (i := i) fun s => hs o i n s (by simp [groupsIn])
        have hnew : ∃ t, (if b then some [] else (c.specComment i).bind fun s =>
              some (lit "\n" ++ s ++ (c.decodedType o i ++ lit " {\n") ++ n.membersText c ++ lit "};\n")) = some t ∧
            Declares t ((if b then [] else [(⟨c.decodedType o i, n.members c⟩ : CStruct)]).map structItem) := by
          cases b with
          | true => exact ⟨[], rfl, Declares.nil⟩
          | false =>
            refine ⟨_, by rw [if_neg (by simp), hcm]; rfl, ?_⟩
            exact struct_declares (h o i (by simp [occsIn])).2 hq fun o i hm => h o i (by simp [occsIn, hm])
        obtain ⟨t, ht, hd⟩ := hnew
        rw [ht, Option.bind_some]
        rcases ih2 (fun o i hm => h o i (by simp [occsIn, hm])) (fun o i n s hm => hs o i n s (by simp [groupsIn, hm])) l2 with
          ⟨e3, e4⟩ | ⟨s2, t2, l3, e3, e4, d2⟩
        · exact .inl ⟨by rw [e3]; rfl, by rw [e4]; rfl⟩
        · rw [e3, e4]
          refine .inr ⟨_, _, l3, rfl, rfl, ?_⟩
          rw [List.map_append, List.map_append]
          exact d1.append (hd.append d2)

/-- The same for each message. -/
theorem eachMsg_declares {α : Type} {f : GIes → Seen → Option (List α × Seen)} {ft : GIes → Seen → Option (Text × Seen)}
    {items : List α → List CItem} (h0 : items [] = []) (happ : ∀ a b, items (a ++ b) = items a ++ items b) {ms : List GMsg}
    (h : ∀ m ∈ ms, ∀ l, (f m.ies l = none ∧ ft m.ies l = none) ∨
      ∃ ss t l', f m.ies l = some (ss, l') ∧ ft m.ies l = some (t, l') ∧ Declares t (items ss)) :
    ∀ l, (eachMsg f ms l = none ∧ eachMsgText ft ms l = none) ∨
      ∃ ss t l', eachMsg f ms l = some (ss, l') ∧ eachMsgText ft ms l = some (t, l') ∧ Declares t (items ss) := by
  induction ms with
  | nil => intro l; exact .inr ⟨[], [], l, rfl, rfl, h0 ▸ Declares.nil⟩
  | cons m ms ih =>
    intro l
    rw [eachMsg, eachMsgText]
    rcases h m (by simp) l with ⟨e1, e2⟩ | ⟨s1, t1, l1, e1, e2, d1⟩
    · exact .inl ⟨by rw [e1]; rfl, by rw [e2]; rfl⟩
    · rw [e1, e2, Option.bind_some, Option.bind_some]
      simp only
      rcases ih (fun m hm => h m (by simp [hm])) l1 with ⟨e3, e4⟩ | ⟨s2, t2, l2, e3, e4, d2⟩
      · exact .inl ⟨by rw [e3]; rfl, by rw [e4]; rfl⟩
      · rw [e3, e4]
        exact .inr ⟨_, _, l2, rfl, rfl, happ _ _ ▸ d1.append d2⟩

/-! ### The union -/

theorem word_msg {p n : Text} (hp : Word p) (hn : Word n) : Word (p ++ lit "_msg_" ++ n) :=
  (hp.append (ident_lit (by decide +kernel))).append hn.2

/-- (gtlv_gen.c:175-182) -/
theorem msgStruct_declares {c : GCfg} {m : GMsg} (hp : Word c.protoName) (hm : Word m.name)
    (h : ∀ o i, (o, i) ∈ occsIn m.ies → Word o.name ∧ TypeName (c.decodedType o i)) :
    Declares (lit "\nstruct " ++ c.protoName ++ lit "_msg_" ++ m.name ++ lit " {\n" ++ m.ies.membersText c ++ lit "};\n")
      [structItem ⟨c.msgType m.name, m.ies.members c⟩] := by
  have e : c.msgType m.name = spaced [lit "struct", c.protoName ++ lit "_msg_" ++ m.name] := by
    simp only [GCfg.msgType, spaced]
    rw [show lit "struct " = lit "struct" ++ [32] by decide +kernel]
    simp only [List.append_assoc]
  rw [structItem, e, List.append_assoc _ (m.ies.membersText c)]
  refine declares_aggregate (by simp) ?_ (membersText_has _ h) (by decide +kernel)
  rw [List.append_assoc (lit "\nstruct "), List.append_assoc (lit "\nstruct "), List.append_assoc (lit "\nstruct ")]
  exact Lexes.app (x := [.word (lit "struct")]) (by decide +kernel)
    (Lexes.word (word_msg hp hm) (by decide +kernel) (l := [.sym 123]) (by decide +kernel)) rfl

theorem HasMembs.flatMap {α : Type} {f : α → Text} {d : α → CDecl} {l : List α} (h : ∀ a ∈ l, HasMembs (f a) [d a]) :
    HasMembs (l.flatMap f) (l.map d) := by
  induction l with
  | nil => exact HasMembs.nil
  | cons a l ih => exact (h a (by simp)).append (ih fun x hx => h x (by simp [hx]))

theorem Declares.flatMap {α : Type} {f : α → Text} {d : α → CItem} {l : List α} (h : ∀ a ∈ l, Declares (f a) [d a]) :
    Declares (l.flatMap f) (l.map d) := by
  induction l with
  | nil => exact Declares.nil
  | cons a l ih => exact (h a (by simp)).append (ih fun x hx => h x (by simp [hx]))

theorem word_ies {p : Text} (hp : Word p) : Word (p ++ lit "_ies") := hp.append (ident_lit (by decide +kernel))

/-- (gtlv_gen.c:172-191) -/
theorem msgUnion_declares {c : GCfg} {ms : List GMsg} (hp : Word c.protoName) (hm : ∀ m ∈ ms, Word m.name)
    (h : ∀ m ∈ ms, ∀ o i, (o, i) ∈ occsIn m.ies → Word o.name ∧ TypeName (c.decodedType o i)) :
    Declares (msgUnionText c ms)
      ((ms.map fun m => structItem ⟨c.msgType m.name, m.ies.members c⟩) ++
        [.aggregate (lit "union " ++ c.protoName ++ lit "_ies")
          (ms.map fun m => { type := lit "struct " ++ c.protoName ++ lit "_msg_" ++ m.name, name := m.name })]) := by
  rw [msgUnionText, List.append_assoc, List.append_assoc]
  refine Declares.append (Declares.flatMap fun m hmm => msgStruct_declares hp (hm m hmm) (h m hmm)) ?_
  have e : lit "union " ++ c.protoName ++ lit "_ies" = spaced [lit "union", c.protoName ++ lit "_ies"] := by
    simp only [spaced]
    rw [show lit "union " = lit "union" ++ [32] by decide +kernel]
    simp only [List.append_assoc]
  rw [e]
  refine declares_aggregate (by simp) ?_ ?_ (by decide +kernel)
  · rw [show lit "_ies {\n" = lit "_ies" ++ lit " {\n" by decide +kernel, List.append_assoc, ← List.append_assoc c.protoName]
    exact Lexes.app (x := [.word (lit "union")]) (by decide +kernel)
      (Lexes.word (word_ies hp) (by decide +kernel) (l := [.sym 123]) (by decide +kernel)) rfl
  · refine HasMembs.flatMap fun m hmm => ?_
    have e : lit "struct " ++ c.protoName ++ lit "_msg_" ++ m.name = spaced [lit "struct", c.protoName ++ lit "_msg_" ++ m.name] := by
      simp only [spaced]
      rw [show lit "struct " = lit "struct" ++ [32] by decide +kernel]
      simp only [List.append_assoc]
    rw [e]
    refine membs_of (by simp) ?_
    have e2 : lit "\tstruct " ++ c.protoName ++ lit "_msg_" ++ m.name ++ lit " " ++ m.name ++ lit ";\n" =
        lit "\tstruct " ++ ((c.protoName ++ lit "_msg_" ++ m.name) ++ (lit " " ++ (m.name ++ lit ";\n"))) := by
      simp only [List.append_assoc]
    rw [e2]
    exact Lexes.app (x := [.word (lit "struct")]) (by decide +kernel)
      (Lexes.word (word_msg hp (hm m hmm)) (sep_append (by decide +kernel)) (l := [.word m.name, .sym 59])
        (Lexes.app (x := []) (by decide +kernel) (Lexes.word (hm m hmm) (by decide +kernel) (by decide +kernel)) rfl)) rfl

end Verif
