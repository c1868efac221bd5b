/-
C98: the characters that gtlv_gen.c puts out are C code with the declarations of C77 and C78.
-/
import Verif.PropsGen2
import Verif.GenTextOther
import Verif.GenTextArray

namespace Verif
open Spec

/-! ### Names in a definition -/

theorem Spec.Printable.readable {c : GCfg} {file : Text} {ms : List GMsg} (h : Printable c file ms) {m : GMsg} (hm : m ∈ ms) {o : GOcc} {i : GInfo}
    (ho : (o, i) ∈ occsIn m.ies) : Readable c o i := by
  have hx : (o, i) ∈ occs ms := List.mem_flatMap.2 ⟨m, hm, ho⟩
  exact ⟨h.name o i hx, h.tag o i hx, h.type o i hx, h.func o i hx, fun t => h.inst o i t hx⟩

/-- Generated, with nothing else. -/
theorem generated_comment {file : Text} (h : InComment file) : Declares (lit "/* THIS FILE IS GENERATED FROM " ++ file ++ lit " */\n") [] := by
  refine Declares.quiet ?_
  have e : lit "/* THIS FILE IS GENERATED FROM " = lit "/* " ++ lit "THIS FILE IS GENERATED FROM " := by decide +kernel
  have h1 : (Lex.code []).run (lit "/* THIS FILE IS GENERATED FROM ") = (.comment, []) := by decide +kernel
  rw [Lexes, List.append_assoc, Lex.run_append, h1, h]
  rfl

theorem headerText_declares {o : Option Text} (h : ∀ x, o = some x → Quiet (lit "\n" ++ x ++ lit "\n")) : Declares (headerText o) [] := by
  cases o with
  | none => exact Declares.nil
  | some x => exact Declares.quiet (h x rfl)

/-- A list of words, split at spaces. -/
def splitSpaces : Text → (acc : Text) → List Text
  | [], acc => [acc.reverse]
  | c :: t, acc => if c = 32 then acc.reverse :: splitSpaces t [] else splitSpaces t (c :: acc)

/-- Decide `TypeName`. -/
def typeNameB (t : Text) : Bool :=
  let ws := splitSpaces t []
  decide (ws ≠ []) && ws.all (fun w => decide (Word w)) && decide (t = spaced ws)

theorem typeName_of {t : Text} (h : typeNameB t = true) : TypeName t := by
  simp only [typeNameB, Bool.and_eq_true, decide_eq_true_eq, List.all_eq_true] at h
  exact ⟨_, h.1.1, h.1.2, h.2⟩

/-- Decide `Printable`, but for `file`. -/
def printableB (c : GCfg) (ms : List GMsg) : Bool :=
  decide (Word c.protoName) &&
  ([c.hHeader, c.cHeader].all fun h => match h with | none => true | some h => decide (Quiet (lit "\n" ++ h ++ lit "\n"))) &&
  typeNameB (c.messageTypeEnum.getD (lit "int")) && c.tagPrefix.all identChar && c.messageTypePrefix.all identChar &&
  ms.all (fun m => decide (Word m.name)) &&
  (occs ms).all (fun x => decide (Word x.1.name) && decide (Word (nameOf x.1 x.2)) && typeNameB (c.decodedType x.1 x.2) &&
    decide (Word (x.2.decEnc.getD (nameOf x.1 x.2))) && (match x.1.inst with | none => true | some t => decide (Word t))) &&
  (groups ms).all fun x => match x.2.1.specRef with
    | none => true
    | some s => match c.specRefPrefix with | none => false | some p => decide (InComment (p ++ s))

theorem printable_of {c : GCfg} {file : Text} {ms : List GMsg} (hf : InComment file) (h : printableB c ms = true) : Printable c file ms := by
  simp only [printableB, Bool.and_eq_true, List.all_eq_true, decide_eq_true_eq] at h
  obtain ⟨⟨⟨⟨⟨⟨⟨h1, h2⟩, h3⟩, h4⟩, h5⟩, h6⟩, h7⟩, h8⟩ := h
  refine ⟨hf, h1, ?_, typeName_of h3, h4, h5, h6, fun o i ho => (h7 _ ho).1.1.1.1, fun o i ho => (h7 _ ho).1.1.1.2,
    fun o i ho => typeName_of (h7 _ ho).1.1.2, fun o i ho => (h7 _ ho).1.2, ?_, ?_⟩
  · intro x hx
    rcases hx with hx | hx
    · have := h2 c.hHeader (by simp)
      rw [hx] at this
      simpa using this
    · have := h2 c.cHeader (by simp)
      rw [hx] at this
      simpa using this
  · intro o i t ho hi
    have := (h7 _ ho).2
    simp only [hi, decide_eq_true_eq] at this
    exact this
  · intro o i n s ho hi
    have := h8 _ ho
    simp only [hi] at this
    cases hp : c.specRefPrefix with
    | none => rw [hp] at this; cases this
    | some p =>
      rw [hp] at this
      simp only [decide_eq_true_eq] at this
      exact ⟨p, rfl, this⟩

namespace Props

/-- C98: the header that is written is a C file with the structs of C78, the union of all messages, and the declarations of the
functions, and nothing else; if none is generated, nothing is written. -/
theorem C98_header {c : GCfg} {file : Text} {ms : List GMsg} (h : Printable c file ms) :
    (∀ ss, writeH c ms = some ss → ∃ t, writeHText c file ms = some t ∧ readFile t = some (headerItems c ms ss)) ∧
    (writeH c ms = none → writeHText c file ms = none) := by
  have hocc : ∀ m ∈ ms, ∀ o i, (o, i) ∈ occsIn m.ies → Word o.name ∧ TypeName (c.decodedType o i) :=
    fun m hm o i ho => ⟨(h.readable hm ho).name, (h.readable hm ho).type⟩
  rcases eachMsg_declares (items := fun ss => ss.map structItem) rfl (fun a b => List.map_append) (ms := ms)
    (fun m hm => structsText_declares m.ies (hocc m hm) fun o i n s hg => h.spec o i n s (List.mem_flatMap.2 ⟨m, hm, hg⟩)) [] with
    ⟨e1, e2⟩ | ⟨ss, t, l, e1, e2, d⟩
  · rw [writeH, writeHText, e1, e2]
    exact ⟨(fun _ h => by cases h), fun _ => rfl⟩
  · rw [writeH, writeHText, e1, e2]
    refine ⟨fun ss' hss => ⟨_, rfl, ?_⟩, fun h => by cases h⟩
    cases hss
    refine Declares.file ?_
    rw [headerItems]
    simp only [List.map_append, List.map_map, Function.comp_def, List.append_assoc, GCfg.msgEnum]
    have hu := msgUnion_declares (c := c) (ms := ms) h.proto h.msg hocc
    have f1 := getCoding_proto h.proto h.enum
    have f2 := ies_decode_proto h.proto h.enum
    have f3 := ies_encode_proto h.proto h.enum
    have f4 := ies_encode_to_str_proto h.proto h.enum
    have hall := (((((((((generated_comment h.file).append (Declares.quiet (t := lit "#include <stdint.h>\n") (by decide +kernel))).append
      (Declares.quiet (t := lit "#include <osmocom/gtlv/gtlv_dec_enc.h>\n") (by decide +kernel))).append
      (headerText_declares (o := c.hHeader) fun x hx => h.header x (.inl hx))).append d).append hu).append f1).append f2).append f3).append f4
    simpa only [List.append_assoc, List.nil_append, List.cons_append] using hall

/-- C98: the C file that is written has the declarations of the functions that the user provides, the arrays and `msg_defs` of
C77, and the functions, and nothing else; if there is an error, the generator ends without it. -/
theorem C98_source {c : GCfg} {file : Text} {ms : List GMsg} (h : Printable c file ms) :
    (∀ g, writeC c ms = some g → ∃ t, writeCText c file ms = some t ∧ readFile t = some (sourceItems c g)) ∧
    (writeC c ms = none → writeCText c file ms = none) := by
  rcases eachMsg_declares (items := fun ss => ss.flatMap (externItems c.protoName c.addEncToStr)) rfl (fun a b => List.flatMap_append) (ms := ms)
    (fun m hm => externsText_declares h.proto m.ies fun o i ho => (h.readable hm ho).func) [] with ⟨e1, e2⟩ | ⟨es, t, l, e1, e2, d⟩
  · rw [writeC, writeCText, e1, e2]
    exact ⟨(fun _ h => by cases h), fun _ => rfl⟩
  · rcases eachMsg_declares (items := fun ss => ss.map (arrayItem c.protoName c.addEncToStr)) rfl (fun a b => List.map_append) (ms := ms)
      (fun m hm => arraysText_declares h.proto h.tagPrefix m.ies fun o i ho => h.readable hm ho) [] with ⟨e3, e4⟩ | ⟨as, t2, l2, e3, e4, d2⟩
    · rw [writeC, writeCText, e1, e2, Option.bind_some, Option.bind_some]
      simp only [e3, e4]
      exact ⟨(fun _ h => by cases h), fun _ => rfl⟩
    · rw [writeC, writeCText, e1, e2, Option.bind_some, Option.bind_some]
      simp only [e3, e4, Option.bind_some]
      refine ⟨fun g hg => ⟨_, rfl, ?_⟩, fun h => by cases h⟩
      cases hg
      refine Declares.file ?_
      rw [sourceItems]
      simp only [List.map_append, List.map_map, List.append_assoc]
      have hm : Declares (ms.flatMap (msgArrayText c)) (ms.map (arrayItem c.protoName c.addEncToStr ∘ msgArray c)) :=
        Declares.flatMap fun m hm => msgArrayText_declares h.proto h.tagPrefix (h.msg m hm) fun o i ho => h.readable hm ho
      have hp := msgDefsText_declares (c := c) h.msgPrefix h.msg
      have f1 := getCoding_func h.proto h.enum
      have f2 := ies_decode_func h.proto h.enum
      have f3 := ies_encode_func h.proto h.enum
      have f4 := ies_encode_to_str_func h.proto h.enum
      have q := Declares.quiet (t := lit "#include <stddef.h>\n" ++ lit "#include <errno.h>\n" ++ lit "#include <osmocom/core/utils.h>\n" ++
        lit "#include <osmocom/gtlv/gtlv.h>\n" ++ lit "#include <osmocom/gtlv/gtlv_dec_enc.h>\n" ++ lit "#include <osmocom/gtlv/gtlv_gen.h>\n") (by decide +kernel)
      have hall := (generated_comment h.file).append (q.append ((headerText_declares (o := c.cHeader) fun x hx => h.header x (.inr hx)).append
        ((Declares.quiet (t := lit "\n") (by decide +kernel)).append (d.append (d2.append (hm.append (hp.append (f1.append (f2.append (f3.append f4))))))))))
      rw [functionsText]
      simpa only [GCfg.msgEnum, List.append_assoc, List.nil_append, List.cons_append] using hall

/-- C98: the program writes the header, or the C file, and returns 0; with other arguments, or none, it writes nothing and returns 1. -/
theorem C98_main {c : GCfg} {file : Text} {ms : List GMsg} (h : Printable c file ms) (args : List Text) :
    (∀ more ss, args = lit "h" :: more → writeH c ms = some ss →
      ∃ t, genMain c file ms args = some (t, 0) ∧ readFile t = some (headerItems c ms ss)) ∧
    (∀ more g, args = lit "c" :: more → writeC c ms = some g →
      ∃ t, genMain c file ms args = some (t, 0) ∧ readFile t = some (sourceItems c g)) ∧
    ((∀ a, args.head? = some a → a ≠ lit "h" ∧ a ≠ lit "c") → genMain c file ms args = some ([], 1)) := by
  refine ⟨?_, ?_, ?_⟩
  · rintro more ss rfl hs
    obtain ⟨t, h1, h2⟩ := (C98_header h).1 ss hs
    exact ⟨t, by rw [genMain, if_pos rfl, h1]; rfl, h2⟩
  · rintro more g rfl hg
    obtain ⟨t, h1, h2⟩ := (C98_source h).1 g hg
    exact ⟨t, by rw [genMain, if_neg (by decide +kernel), if_pos rfl, h1]; rfl, h2⟩
  · intro ha
    cases args with
    | nil => rfl
    | cons a l =>
      obtain ⟨h1, h2⟩ := ha a rfl
      rw [genMain, if_neg h1, if_neg h2]

theorem _root_.Verif.Pfcp.printable {file : Text} (hf : InComment file) : Printable Pfcp.cfg file Pfcp.msgDefs :=
  printable_of hf (by decide +kernel)

/-- C98, for PFCP: running gen__pfcp_ies_auto.c writes a C file whose arrays are the coding tables of the model of libosmo-pfcp, for
all message types, and a header with the structs that these tables need. -/
theorem C98_pfcp {file : Text} (hf : InComment file) :
    (∃ t g env, genMain Pfcp.cfg file Pfcp.msgDefs [lit "c"] = some (t, 0) ∧ readFile t = some (sourceItems Pfcp.cfg g) ∧
      compile g.arrays [] = some env ∧ ∀ type, (g.getMsgCoding Pfcp.value env type).bind Pfcp.fields = msgFields type) ∧
    (∃ t ss env, genMain Pfcp.cfg file Pfcp.msgDefs [lit "h"] = some (t, 0) ∧ readFile t = some (headerItems Pfcp.cfg Pfcp.msgDefs ss) ∧
      compileH ss [] = some env ∧ ∀ m ∈ Pfcp.msgDefs, Room Pfcp.cfg env (msgTable Pfcp.cfg m)) := by
  obtain ⟨g, env, h1, h2, h3⟩ := C77_pfcp
  obtain ⟨ss, env', h4, h5, h6⟩ := C78_pfcp
  have hp := Pfcp.printable hf
  obtain ⟨t, h7, h8⟩ := (C98_main hp [lit "c"]).2.1 [] g rfl h1
  obtain ⟨t', h9, h10⟩ := (C98_main hp [lit "h"]).1 [] ss rfl h4
  exact ⟨⟨t, g, env, h7, h8, h2, h3⟩, ⟨t', ss, env', h9, h10, h5, h6⟩⟩

/-! ### Examples -/

example : InComment (lit "src/libosmo-gtlv/gtlv_gen.c") := by decide +kernel

/-- A protocol with an array, a nested IE that is optional, and an instance. -/
def exText : List GMsg :=
  [⟨lit "m", .ie { name := lit "a", multi := 4, multiMandatory := 1 } { addr := 1, decodedType := some (lit "unsigned int"), decEnc := some (lit "u32") } <|
    .group { name := lit "b", optional := true, inst := some (lit "2") } { addr := 2 } (.ie { name := lit "c" } { addr := 3 } .nil) .nil⟩]

example : Printable exCfg (lit "g.c") exText := printable_of (by decide +kernel) (by decide +kernel)

set_option maxRecDepth 100000 in
example : (writeHText exCfg (lit "g.c") exText).bind readFile = some
    [.aggregate (lit "struct p_ie_b") [⟨lit "struct p_ie_c", lit "c", none⟩],
     .aggregate (lit "struct p_msg_m") [⟨lit "unsigned int", lit "a", some 4⟩, ⟨lit "unsigned int", lit "a_count", none⟩,
       ⟨lit "bool", lit "b_present", none⟩, ⟨lit "struct p_ie_b", lit "b", none⟩],
     .aggregate (lit "union p_ies") [⟨lit "struct p_msg_m", lit "m", none⟩],
     .other (lit "const struct osmo_gtlv_coding*p_get_msg_coding(int message_type)"),
     .other (lit "int p_ies_decode(union p_ies*dst,struct osmo_gtlv_load*gtlv,bool tlv_ordered,int message_type,osmo_gtlv_err_cb err_cb,void*err_cb_data,const struct value_string*iei_strs)"),
     .other (lit "int p_ies_encode(struct osmo_gtlv_put*gtlv,const union p_ies*src,int message_type,osmo_gtlv_err_cb err_cb,void*err_cb_data,const struct value_string*iei_strs)"),
     .other (lit "int p_ies_encode_to_str(char*buf,size_t buflen,const union p_ies*src,int message_type,const struct value_string*iei_strs)")] := by
  decide +kernel

set_option maxRecDepth 100000 in
example : ((writeCText exCfg (lit "g.c") exText).bind readFile).map (·.drop 4 |>.take 3) = some
    [.codings (lit "ies_in_b") [{ tag := lit "P_IEI_C", membOfs := some (lit "struct p_ie_b", lit "c"), decFunc := some (lit "p_dec_c"), encFunc := some (lit "p_enc_c") }],
     .codings (lit "ies_in_msg_m") [
       { tag := lit "P_IEI_A", membOfs := some (lit "union p_ies", lit "m.a"), decFunc := some (lit "p_dec_u32"), encFunc := some (lit "p_enc_u32")
         pitch := some (lit "union p_ies", lit "m.a"), hasCount := true, countMax := 4, countMandatory := 1
         countOfs := some (lit "union p_ies", lit "m.a_count") },
       { tag := lit "P_IEI_B", inst := some (lit "2"), membOfs := some (lit "union p_ies", lit "m.b"), nested := some (lit "ies_in_b"), hasPresence := true
         presenceOfs := some (lit "union p_ies", lit "m.b_present") }],
     .pointers (lit "msg_defs") [(lit "P_MSGT_M", lit "ies_in_msg_m")]] := by
  decide +kernel

/-- What is missing in `Printable` if there is a `spec_ref` without a `spec_ref_prefix`: printf() is given NULL. -/
theorem C98_null_prefix : let ms := [GMsg.mk (lit "m") (.group { name := lit "b" } { addr := 2, specRef := some (lit "1.2") } (.ie { name := lit "c" } { addr := 3 } .nil) .nil)]
    (writeH exCfg ms).isSome = true ∧ writeHText exCfg (lit "g.c") ms = none := by
  decide +kernel

example : genMain exCfg (lit "g.c") exText [] = some ([], 1) ∧ genMain exCfg (lit "g.c") exText [lit "hh"] = some ([], 1) := by decide +kernel

end Props
end Verif
