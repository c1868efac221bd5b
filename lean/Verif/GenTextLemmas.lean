/-
Lemmas about reading C text (SpecGenText), piece by piece.
-/
import Verif.GenText
import Verif.SpecGenText

namespace Verif
open Spec

/-! ### Words and symbols -/

theorem Lex.run_append (s : Lex) (a b : Text) :
    s.run (a ++ b) = (((s.run a).1.run b).1, (s.run a).2 ++ ((s.run a).1.run b).2) := by
  induction a generalizing s with
  | nil => simp [Lex.run]
  | cons c a ih => simp only [List.cons_append, Lex.run, ih, List.append_assoc]

/-- Read from the start of a word to the start of a word. -/
def Lexes (t : Text) (l : List Tok) : Prop := (Lex.code []).run t = (.code [], l)

instance (w : Text) : Decidable (Word w) := inferInstanceAs (Decidable (_ ∧ _))
instance (t : Text) (l : List Tok) : Decidable (Lexes t l) := inferInstanceAs (Decidable (_ = _))
instance (t : Text) : Decidable (Quiet t) := inferInstanceAs (Decidable (_ = _))
instance (t : Text) : Decidable (InComment t) := inferInstanceAs (Decidable (_ = _))

theorem Lexes.nil : Lexes [] [] := rfl

theorem Lexes.append {a b x y} (ha : Lexes a x) (hb : Lexes b y) : Lexes (a ++ b) (x ++ y) := by
  rw [Lexes, Lex.run_append, ha, hb]

theorem Lexes.app {a b x y l} (ha : Lexes a x) (hb : Lexes b y) (e : x ++ y = l) : Lexes (a ++ b) l := e ▸ ha.append hb

theorem Lex.run_word {w : Text} (v : Text) (h : ∀ c ∈ w, identChar c = true) : (Lex.code v).run w = (.code (w.reverse ++ v), []) := by
  induction w generalizing v with
  | nil => rfl
  | cons c w ih =>
    have hc : identChar c = true := h c (by simp)
    rw [Lex.run, Lex.step, if_pos hc]
    simp only [ih (c :: v) fun d hd => h d (by simp [hd]), List.reverse_cons, List.append_assoc, List.cons_append,
      List.nil_append]

/-- It starts with something that ends a word. -/
def sep : Text → Bool
  | [] => false
  | c :: _ => !identChar c

theorem sep_append {a b : Text} (h : sep a = true) : sep (a ++ b) = true := by
  cases a with
  | nil => cases h
  | cons c a => exact h

theorem Lex.run_sep {t : Text} (v : Text) (h : sep t = true) :
    (Lex.code v).run t = (((Lex.code []).run t).1, flush v ++ ((Lex.code []).run t).2) := by
  cases t with
  | nil => cases h
  | cons c t =>
    have hc : ¬ identChar c = true := by
      have : (!identChar c) = true := h
      simpa using this
    have key : (Lex.code v).step c = (((Lex.code []).step c).1, flush v ++ ((Lex.code []).step c).2) := by
      simp only [Lex.step, if_neg hc]
      have hn : flush [] = [] := rfl
      split
      · simp [hn]
      · split
        · simp [hn]
        · split <;> simp [hn]
    rw [Lex.run, key]
    simp only [Lex.run, List.append_assoc]

theorem flush_word {w : Text} (h : w ≠ []) : flush (w.reverse ++ []) = [.word w] := by
  rw [List.append_nil, flush, if_neg (by simpa using h), List.reverse_reverse]

theorem Lexes.word {w t l} (hw : Word w) (ht : sep t = true) (h : Lexes t l) : Lexes (w ++ t) (.word w :: l) := by
  rw [Lexes, Lex.run_append, Lex.run_word [] hw.2]
  show (((Lex.code (w.reverse ++ [])).run t).1, [] ++ ((Lex.code (w.reverse ++ [])).run t).2) = _
  rw [Lex.run_sep _ ht, flush_word hw.1, h]
  rfl

/-- Words with blanks between them. -/
theorem Lexes.words {ws : List Text} {t l} (hw : ∀ w ∈ ws, Word w) (hne : ws ≠ []) (ht : sep t = true) (h : Lexes t l) :
    Lexes (spaced ws ++ t) (ws.map Tok.word ++ l) := by
  induction ws with
  | nil => exact absurd rfl hne
  | cons w ws ih =>
    cases ws with
    | nil => exact Lexes.word (hw w (by simp)) ht h
    | cons v ws =>
      have ih' := ih (fun x hx => hw x (List.mem_cons_of_mem _ hx)) (by simp)
      have hs : Lexes ([32] ++ (spaced (v :: ws) ++ t)) ((v :: ws).map Tok.word ++ l) :=
        Lexes.app (x := []) (by decide +kernel) ih' rfl
      have := Lexes.word (hw w (by simp)) (sep_append (a := [32]) (by decide +kernel)) hs
      simpa only [spaced, List.append_assoc, List.map_cons, List.cons_append] using this

theorem Spec.Word.append {a b : Text} (ha : Word a) (hb : ∀ c ∈ b, identChar c = true) : Word (a ++ b) := by
  refine ⟨by simp [ha.1], fun c hc => ?_⟩
  rcases List.mem_append.1 hc with h | h
  · exact ha.2 c h
  · exact hb c h

theorem Spec.Word.after {a b : Text} (ha : ∀ c ∈ a, identChar c = true) (hb : Word b) : Word (a ++ b) := by
  refine ⟨by simp [hb.1], fun c hc => ?_⟩
  rcases List.mem_append.1 hc with h | h
  · exact ha c h
  · exact hb.2 c h

theorem Lexes.comment {t r l} (ht : InComment t) (h : Lexes r l) : Lexes (lit "/* " ++ (t ++ (lit " */\n" ++ r))) l := by
  have hstart : (Lex.code []).run (lit "/* ") = (.comment, []) := by decide +kernel
  rw [Lexes, Lex.run_append, hstart, ← List.append_assoc t, Lex.run_append _ (t ++ lit " */\n"), ht, h]
  rfl

/-! ### Brackets -/

namespace Spec.Forest

theorem nil_append' (f : Forest) : Forest.nil ++ f = f := rfl
theorem word_append (w : Text) (r g : Forest) : Forest.word w r ++ g = .word w (r ++ g) := rfl
theorem sym_append (c : UInt8) (r g : Forest) : Forest.sym c r ++ g = .sym c (r ++ g) := rfl
theorem grp_append (o : UInt8) (i r g : Forest) : Forest.grp o i r ++ g = .grp o i (r ++ g) := rfl

theorem append_nil' (f : Forest) : f ++ Forest.nil = f := by
  induction f with
  | nil => rfl
  | word w r ih => rw [word_append, ih]
  | sym c r ih => rw [sym_append, ih]
  | grp o i r _ ih => rw [grp_append, ih]

theorem append_assoc' (f g h : Forest) : f ++ g ++ h = f ++ (g ++ h) := by
  induction f with
  | nil => rfl
  | word w r ih => simp only [word_append, ih]
  | sym c r ih => simp only [sym_append, ih]
  | grp o i r _ ih => simp only [grp_append, ih]

theorem toks_append (f g : Forest) : (f ++ g).toks = f.toks ++ g.toks := by
  induction f with
  | nil => rfl
  | word w r ih => simp only [word_append, toks, ih, List.cons_append]
  | sym c r ih => simp only [sym_append, toks, ih, List.cons_append]
  | grp o i r _ ih => simp only [grp_append, toks, ih, List.cons_append, List.append_assoc]

/-- Symbols are not brackets, and groups are in brackets. -/
def wf : Forest → Bool
  | .nil => true
  | .word _ r => r.wf
  | .sym c r => !opens c && !closes c && r.wf
  | .grp o i r => opens o && i.wf && r.wf

theorem wf_append {f g : Forest} (hf : f.wf = true) (hg : g.wf = true) : (f ++ g).wf = true := by
  induction f with
  | nil => exact hg
  | word w r ih => exact ih hf
  | sym c r ih =>
    simp only [wf, Bool.and_eq_true] at hf
    simp only [sym_append, wf, Bool.and_eq_true]
    exact ⟨hf.1, ih hf.2⟩
  | grp o i r _ ih =>
    simp only [wf, Bool.and_eq_true] at hf
    simp only [grp_append, wf, Bool.and_eq_true]
    exact ⟨hf.1, ih hf.2⟩

end Spec.Forest

open Spec.Forest

theorem opens_closing {o : UInt8} (h : opens o = true) : opens (closing o) = false ∧ closes (closing o) = true := by
  simp only [opens, Bool.or_eq_true, beq_iff_eq] at h
  rcases h with (rfl | rfl) | rfl <;> decide

theorem nest_toks {f : Forest} (h : f.wf = true) (ts : List Tok) (cur : Forest) (st : List (UInt8 × Forest)) :
    nest (f.toks ++ ts) cur st = nest ts (cur ++ f) st := by
  induction f generalizing ts cur st with
  | nil => rw [append_nil']; rfl
  | word w r ih =>
    show nest (r.toks ++ ts) (cur ++ .word w .nil) st = _
    rw [ih h, append_assoc']
    rfl
  | sym c r ih =>
    simp only [wf, Bool.and_eq_true, Bool.not_eq_true'] at h
    simp only [toks, List.cons_append, nest, h.1.1, h.1.2, Bool.false_eq_true, if_false]
    rw [ih h.2, append_assoc']
    rfl
  | grp o i r ih1 ih2 =>
    simp only [wf, Bool.and_eq_true] at h
    obtain ⟨h1, h2⟩ := opens_closing h.1.1
    simp only [toks, List.cons_append, nest, h.1.1, if_true, List.append_assoc]
    rw [ih1 h.1.2]
    simp only [nest, h1, h2, Bool.false_eq_true, if_false, if_true]
    rw [ih2 h.2, append_assoc']
    rfl

/-- A piece of text, and what it reads as. -/
def ReadsAs (t : Text) (f : Forest) : Prop := Lexes t f.toks ∧ f.wf = true

theorem ReadsAs.nil : ReadsAs [] .nil := ⟨Lexes.nil, rfl⟩

theorem ReadsAs.append {a b f g} (ha : ReadsAs a f) (hb : ReadsAs b g) : ReadsAs (a ++ b) (f ++ g) :=
  ⟨toks_append f g ▸ ha.1.append hb.1, wf_append ha.2 hb.2⟩

/-- In brackets. -/
theorem ReadsAs.wrap {a t b x i r} {o : UInt8} (ho : opens o = true) (ha : Lexes a (x.toks ++ [.sym o])) (hx : x.wf = true) (ht : ReadsAs t i)
    (hb : Lexes b (.sym (closing o) :: r.toks)) (hr : r.wf = true) : ReadsAs (a ++ (t ++ b)) (x ++ .grp o i r) := by
  refine ⟨?_, wf_append hx ?_⟩
  · rw [toks_append]
    refine Lexes.app ha (ht.1.append hb) ?_
    simp only [toks, List.append_assoc, List.cons_append, List.nil_append]
  · simp only [wf, Bool.and_eq_true]
    exact ⟨⟨ho, ht.2⟩, hr⟩

/-- Reading a file. -/
theorem readFile_of {t f} (h : ReadsAs t f) : readFile t = (f.declarations .nil).bind fun l => l.mapM itemOf := by
  have h1 : tokens t = some f.toks := by
    rw [tokens, h.1]
    simp [flush]
  have h2 := nest_toks h.2 [] .nil []
  rw [List.append_nil] at h2
  rw [readFile, h1, Option.bind_some, h2]
  rfl

/-! ### Declarations -/

/-- Words. -/
def wordsF : List Text → Forest
  | [] => .nil
  | w :: ws => .word w (wordsF ws)

theorem toks_wordsF (ws : List Text) : (wordsF ws).toks = ws.map Tok.word := by
  induction ws with
  | nil => rfl
  | cons w ws ih => simp only [wordsF, toks, ih, List.map_cons]

theorem wf_wordsF (ws : List Text) : (wordsF ws).wf = true := by
  induction ws with
  | nil => rfl
  | cons w ws ih => exact ih

theorem words_wordsF (ws : List Text) (f : Forest) (h : f.words.1 = []) (h2 : f.words.2 = f) : (wordsF ws ++ f).words = (ws, f) := by
  induction ws with
  | nil => exact Prod.ext h h2
  | cons w ws ih => simp only [wordsF, word_append, Forest.words, ih]

theorem commas_words (ws : List Text) (g acc : Forest) : (wordsF ws ++ g).commas acc = g.commas (acc ++ wordsF ws) := by
  induction ws generalizing acc with
  | nil => rw [wordsF, append_nil']; rfl
  | cons w ws ih =>
    simp only [wordsF, word_append, Forest.commas, ih, append_assoc']
    rfl

theorem semicolons_words (ws : List Text) (g acc : Forest) : (wordsF ws ++ g).semicolons acc = g.semicolons (acc ++ wordsF ws) := by
  induction ws generalizing acc with
  | nil => rw [wordsF, append_nil']; rfl
  | cons w ws ih =>
    simp only [wordsF, word_append, Forest.semicolons, ih, append_assoc']
    rfl

theorem declarations_words (ws : List Text) (g acc : Forest) :
    (wordsF ws ++ g).declarations acc = g.declarations (acc ++ wordsF ws) := by
  induction ws generalizing acc with
  | nil => rw [wordsF, append_nil']; rfl
  | cons w ws ih =>
    simp only [wordsF, word_append, Forest.declarations, ih, append_assoc']
    rfl

/-- These declarations. -/
def Decls (f : Forest) (l : List Forest) : Prop :=
  f.semicolon = false ∧ ∀ g : Forest, g.semicolon = false → (f ++ g).declarations .nil = (g.declarations .nil).map (l ++ ·)

theorem Decls.nil : Decls .nil [] := by
  refine ⟨rfl, ?_⟩
  intro g _
  show g.declarations .nil = _
  cases g.declarations .nil <;> rfl

theorem semicolon_append {f g : Forest} (hf : f.semicolon = false) (hg : g.semicolon = false) : (f ++ g).semicolon = false := by
  cases f with
  | nil => exact hg
  | word w r => rfl
  | sym c r => exact hf
  | grp o i r => rfl

theorem Decls.append {f g l m} (hf : Decls f l) (hg : Decls g m) : Decls (f ++ g) (l ++ m) := by
  refine ⟨semicolon_append hf.1 hg.1, ?_⟩
  intro h hh
  rw [append_assoc', hf.2 _ (semicolon_append hg.1 hh), hg.2 _ hh]
  cases h.declarations .nil with
  | none => rfl
  | some x => simp

/-- A piece of text that has these declarations. -/
def Declares (t : Text) (items : List CItem) : Prop := ∃ f l, ReadsAs t f ∧ Decls f l ∧ l.mapM itemOf = some items

theorem Declares.nil : Declares [] [] := ⟨.nil, [], ReadsAs.nil, Decls.nil, rfl⟩

theorem mapM_append {α β : Type} (f : α → Option β) (a b : List α) :
    (a ++ b).mapM f = (a.mapM f).bind fun x => (b.mapM f).bind fun y => some (x ++ y) := by
  rw [List.mapM_append]
  rfl

theorem Declares.append {a b x y} (ha : Declares a x) (hb : Declares b y) : Declares (a ++ b) (x ++ y) := by
  obtain ⟨f, l, h1, h2, h3⟩ := ha
  obtain ⟨g, m, h4, h5, h6⟩ := hb
  refine ⟨f ++ g, l ++ m, h1.append h4, h2.append h5, ?_⟩
  rw [mapM_append, h3, h6]
  rfl

theorem Declares.file {t items} (h : Declares t items) : readFile t = some items := by
  obtain ⟨f, l, h1, h2, h3⟩ := h
  have := h2.2 .nil rfl
  rw [append_nil'] at this
  rw [readFile_of h1, this]
  simpa [Forest.declarations] using h3

/-- Text without declarations. -/
theorem Declares.quiet {t} (h : Lexes t []) : Declares t [] := ⟨.nil, [], ⟨h, rfl⟩, Decls.nil, rfl⟩

theorem Declares.one {t f d item} (h : ReadsAs t f) (hd : Decls f [d]) (hi : itemOf d = some item) : Declares t [item] :=
  ⟨f, [d], h, hd, by simp [hi]⟩

/-- Members. -/
def Membs (f : Forest) (l : List Forest) : Prop := ∀ g : Forest, (f ++ g).semicolons .nil = (g.semicolons .nil).map (l ++ ·)

theorem Membs.nil : Membs .nil [] := by
  intro g
  show g.semicolons .nil = _
  cases g.semicolons .nil <;> rfl

theorem Membs.append {f g l m} (hf : Membs f l) (hg : Membs g m) : Membs (f ++ g) (l ++ m) := by
  intro h
  rw [append_assoc', hf, hg]
  cases h.semicolons .nil with
  | none => rfl
  | some x => simp

/-- A piece of text that has these members. -/
def HasMembs (t : Text) (ds : List CDecl) : Prop := ∃ f l, ReadsAs t f ∧ Membs f l ∧ l.mapM memberOf = some ds

theorem HasMembs.nil : HasMembs [] [] := ⟨.nil, [], ReadsAs.nil, Membs.nil, rfl⟩

theorem HasMembs.append {a b x y} (ha : HasMembs a x) (hb : HasMembs b y) : HasMembs (a ++ b) (x ++ y) := by
  obtain ⟨f, l, h1, h2, h3⟩ := ha
  obtain ⟨g, m, h4, h5, h6⟩ := hb
  refine ⟨f ++ g, l ++ m, h1.append h4, h2.append h5, ?_⟩
  rw [mapM_append, h3, h6]
  rfl

theorem HasMembs.read {t ds} (h : HasMembs t ds) : ∃ f, ReadsAs t f ∧ (f.semicolons .nil).bind (fun l => l.mapM memberOf) = some ds := by
  obtain ⟨f, l, h1, h2, h3⟩ := h
  have := h2 .nil
  rw [append_nil'] at this
  refine ⟨f, h1, ?_⟩
  rw [this]
  simpa [Forest.semicolons] using h3

/-- What is separated by commas. -/
def Parts (f : Forest) (l : List Forest) : Prop := ∀ g : Forest, (f ++ g).commas .nil = l ++ g.commas .nil

theorem Parts.nil : Parts .nil [] := fun _ => rfl

theorem Parts.append {f g l m} (hf : Parts f l) (hg : Parts g m) : Parts (f ++ g) (l ++ m) := by
  intro h
  rw [append_assoc', hf, hg, List.append_assoc]

/-! ### Numbers -/

theorem digit_octet : ∀ d : Fin 10, (48 ≤ UInt8.ofNat (Nat.digitChar d).toNat && UInt8.ofNat (Nat.digitChar d).toNat ≤ 57) = true ∧
    (UInt8.ofNat (Nat.digitChar d).toNat).toNat - 48 = d.val := by decide

theorem dec_step (n : Nat) (h : ¬ n < 10) : dec n = dec (n / 10) ++ [UInt8.ofNat (Nat.digitChar (n % 10)).toNat] := by
  rw [dec, Nat.toDigits_of_base_le (by decide) (by omega), List.map_append]
  rfl

theorem dec_small (n : Nat) (h : n < 10) : dec n = [UInt8.ofNat (Nat.digitChar n).toNat] := by
  rw [dec, Nat.toDigits_of_lt_base h]
  rfl

theorem dec_digits (n : Nat) : dec n ≠ [] ∧ (dec n).all (fun c => 48 ≤ c && c ≤ 57) = true ∧
    (dec n).foldl (fun a c => a * 10 + (c.toNat - 48)) 0 = n := by
  induction n using Nat.strongRecOn with
  | _ n ih =>
    by_cases h : n < 10
    · rw [dec_small n h]
      have := digit_octet ⟨n, h⟩
      refine ⟨by simp, by simpa using this.1, by simpa using this.2⟩
    · rw [dec_step n h]
      obtain ⟨-, h2, h3⟩ := ih (n / 10) (by omega)
      have := digit_octet ⟨n % 10, by omega⟩
      refine ⟨by simp, ?_, ?_⟩
      · rw [List.all_append, h2]
        simpa using this.1
      · rw [List.foldl_append, h3]
        simp only [List.foldl_cons, List.foldl_nil]
        have e := this.2
        simp only at e
        omega

theorem decimal_dec (n : Nat) : decimal (dec n) = some n := by
  obtain ⟨h1, h2, h3⟩ := dec_digits n
  rw [decimal, if_pos ⟨h1, h2⟩, h3]

theorem word_dec (n : Nat) : Word (dec n) := by
  obtain ⟨h1, h2, -⟩ := dec_digits n
  refine ⟨h1, fun c hc => ?_⟩
  have := List.all_eq_true.1 h2 c hc
  rw [identChar, this]
  rfl

theorem word_upper {p s : Text} (hp : ∀ c ∈ p, identChar c = true) (hs : Word s) : Word (p ++ toUpper s) := by
  have h : ∀ c : UInt8, identChar c = true → identChar (if 97 ≤ c ∧ c ≤ 122 then c - 32 else c) = true := by
    intro c
    have : ∀ n : Fin 256, identChar (UInt8.ofNat n) = true →
        identChar (if 97 ≤ UInt8.ofNat n ∧ UInt8.ofNat n ≤ 122 then UInt8.ofNat n - 32 else UInt8.ofNat n) = true := by decide +kernel
    have e : UInt8.ofNat c.toNat = c := by simp
    have := this ⟨c.toNat, c.toNat_lt⟩
    simpa only [e] using this
  refine Spec.Word.after hp ⟨?_, fun c hc => ?_⟩
  · obtain ⟨h1, -⟩ := hs
    cases s with
    | nil => exact absurd rfl h1
    | cons a s => simp [toUpper]
  · obtain ⟨d, hd, rfl⟩ := List.mem_map.1 hc
    exact h d (hs.2 d (List.mem_of_mem_take hd))

end Verif
