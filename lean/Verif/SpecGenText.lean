/-
A reader for the subset of C that gtlv_gen.c writes, used to say what the text it puts out stands for.

Not covered (reading fails, or the program that is read is not this one): string and character constants, `//` comments, `/` as an
operator, and comments or continued lines in preprocessor directives.
-/
import Verif.SpecGen

namespace Verif.Spec
open Verif

/-! ### Words and symbols -/

/-- Letters, digits and '_'. -/
def identChar (c : UInt8) : Bool := (48 ≤ c && c ≤ 57) || (65 ≤ c && c ≤ 90) || c == 95 || (97 ≤ c && c ≤ 122)

/-- Space, tab and newline. -/
def blank (c : UInt8) : Bool := c == 32 || c == 9 || c == 10

/-- Names and numbers; everything else. -/
inductive Tok where
  | word (w : Text)
  | sym (c : UInt8)
  deriving DecidableEq

/-- Where a reader is: in code, after the characters of an unfinished word (latest first); after '/'; in a comment;
there, after '*'; in a line that starts with '#'; or something was not understood. -/
inductive Lex where
  | code (w : Text)
  | slash
  | comment
  | star
  | directive
  | lost
  deriving DecidableEq

/-- The end of a word. -/
def flush (w : Text) : List Tok := if w = [] then [] else [.word w.reverse]

def Lex.step : Lex → UInt8 → Lex × List Tok
  | .code w, c =>
    if identChar c then (.code (c :: w), [])
    else if c = 47 then (.slash, flush w)
    else if c = 35 then (.directive, flush w)
    else if c = 34 ∨ c = 39 ∨ c = 92 then (.lost, flush w)
    else (.code [], flush w ++ if blank c then [] else [.sym c])
  | .slash, c => if c = 42 then (.comment, []) else (.lost, [])
  | .comment, c => if c = 42 then (.star, []) else (.comment, [])
  | .star, c => if c = 47 then (.code [], []) else if c = 42 then (.star, []) else (.comment, [])
  | .directive, c => if c = 10 then (.code [], []) else (.directive, [])
  | .lost, _ => (.lost, [])

def Lex.run : Lex → Text → Lex × List Tok
  | s, [] => (s, [])
  | s, c :: t => (((s.step c).1.run t).1, (s.step c).2 ++ ((s.step c).1.run t).2)

/-- The words and symbols of a file. -/
def tokens (t : Text) : Option (List Tok) :=
  match (Lex.code []).run t with
  | (.code w, l) => some (l ++ flush w)
  | _ => none

/-! ### Brackets -/

/-- Words, symbols, and what is in brackets: `grp o inner` is `inner` between the bracket `o` and the one that
closes it. -/
inductive Forest where
  | nil
  | word (w : Text) (rest : Forest)
  | sym (c : UInt8) (rest : Forest)
  | grp (o : UInt8) (inner rest : Forest)
  deriving DecidableEq

namespace Forest

def append : Forest → Forest → Forest
  | .nil, g => g
  | .word w r, g => .word w (r.append g)
  | .sym c r, g => .sym c (r.append g)
  | .grp o i r, g => .grp o i (r.append g)

instance : Append Forest := ⟨append⟩

end Forest

/-- `(`, `[`, `{` -/
def opens (c : UInt8) : Bool := c == 40 || c == 91 || c == 123
/-- `)`, `]`, `}` -/
def closes (c : UInt8) : Bool := c == 41 || c == 93 || c == 125
/-- The bracket that closes. -/
def closing (o : UInt8) : UInt8 := if o = 40 then 41 else o + 2

/-- Match brackets: `cur` is what was read inside of the innermost open bracket, `stack` has for each open bracket what
was read before it. -/
def nest : List Tok → (cur : Forest) → (stack : List (UInt8 × Forest)) → Option Forest
  | [], cur, [] => some cur
  | [], _, _ :: _ => none
  | .word w :: ts, cur, st => nest ts (cur ++ .word w .nil) st
  | .sym c :: ts, cur, st =>
    if opens c then nest ts .nil ((c, cur) :: st)
    else if closes c then
      match st with
      | [] => none
      | (o, f) :: st => if closing o = c then nest ts (f ++ .grp o cur .nil) st else none
    else nest ts (cur ++ .sym c .nil) st

/-! ### Declarations -/

/-- Words and symbols as text, without blanks except between words. -/
def glue : List Tok → Text
  | [] => []
  | .sym c :: r => c :: glue r
  | .word w :: r => w ++ ((match r with | .word _ :: _ => [32] | _ => []) ++ glue r)

namespace Forest

/-- The words and symbols again. -/
def toks : Forest → List Tok
  | .nil => []
  | .word w r => .word w :: r.toks
  | .sym c r => .sym c :: r.toks
  | .grp o i r => .sym o :: (i.toks ++ .sym (closing o) :: r.toks)

/-- The words at the start, and what follows. -/
def words : Forest → List Text × Forest
  | .word w r => (w :: r.words.1, r.words.2)
  | f => ([], f)

/-- What is separated by commas; nothing may follow the last comma. -/
def commas : Forest → (acc : Forest) → List Forest
  | .nil, acc => if acc = .nil then [] else [acc]
  | .sym c r, acc => if c = 44 then acc :: r.commas .nil else r.commas (acc ++ .sym c .nil)
  | .word w r, acc => r.commas (acc ++ .word w .nil)
  | .grp o i r, acc => r.commas (acc ++ .grp o i .nil)

/-- What ends in semicolons; `none` if there is no semicolon at the end. -/
def semicolons : Forest → (acc : Forest) → Option (List Forest)
  | .nil, acc => if acc = .nil then some [] else none
  | .sym c r, acc => if c = 59 then (r.semicolons .nil).map (acc :: ·) else r.semicolons (acc ++ .sym c .nil)
  | .word w r, acc => r.semicolons (acc ++ .word w .nil)
  | .grp o i r, acc => r.semicolons (acc ++ .grp o i .nil)

/-- It starts with a semicolon. -/
def semicolon : Forest → Bool
  | .sym c _ => c == 59
  | _ => false

/-- The declarations of a file: each ends in a semicolon, or is the definition of a function and ends in `}`. -/
def declarations : Forest → (acc : Forest) → Option (List Forest)
  | .nil, acc => if acc = .nil then some [] else none
  | .sym c r, acc => if c = 59 then (r.declarations .nil).map (acc :: ·) else r.declarations (acc ++ .sym c .nil)
  | .word w r, acc => r.declarations (acc ++ .word w .nil)
  | .grp o i r, acc =>
    if o = 123 ∧ r.semicolon = false then (r.declarations .nil).map ((acc ++ .grp o i .nil) :: ·)
    else r.declarations (acc ++ .grp o i .nil)

end Forest

/-- Words with a space between them. -/
def spaced : List Text → Text
  | [] => []
  | [w] => w
  | w :: ws => w ++ [32] ++ spaced ws

/-- A decimal number. -/
def decimal (w : Text) : Option Nat :=
  if w ≠ [] ∧ w.all (fun c => 48 ≤ c && c ≤ 57) then some (w.foldl (fun a c => a * 10 + (c.toNat - 48)) 0) else none

/-- A member of a struct or union: `TYPE NAME;` or `TYPE NAME[DIM];`. -/
structure CDecl where
  type : Text
  name : Text
  dim : Option Nat := none
  deriving DecidableEq

/-- Read a member. -/
def memberOf (f : Forest) : Option CDecl :=
  match f.words.1.reverse, f.words.2 with
  | name :: t :: ts, .nil => some { type := spaced (t :: ts).reverse, name }
  | name :: t :: ts, .grp 91 (.word d .nil) .nil =>
    (decimal d).map fun n => { type := spaced (t :: ts).reverse, name, dim := some n }
  | _, _ => none

/-- An initialised `struct osmo_gtlv_coding` (gtlv_dec_enc.h).  What is not mentioned is 0, `none`. `offsetof(TYPE, PATH)` is
the pair of TYPE and PATH. -/
structure CCoding where
  tag : Text
  inst : Option Text := none
  membOfs : Option (Text × Text) := none
  pitch : Option (Text × Text) := none
  decFunc : Option Text := none
  encFunc : Option Text := none
  strFunc : Option Text := none
  nested : Option Text := none
  hasCount : Bool := false
  countMax : Nat := 0
  countMandatory : Nat := 0
  countOfs : Option (Text × Text) := none
  hasPresence : Bool := false
  presenceOfs : Option (Text × Text) := none
  deriving DecidableEq

/-- `FUNCTION(TYPE, PATH)` -/
def typePath (function : Text) (f : Forest) : Option (Text × Text) :=
  match f with
  | .word w (.grp 40 args .nil) =>
    match args.commas .nil with
    | [t, p] => if w = function ∧ t.words.2 = .nil then some (spaced t.words.1, glue p.toks) else none
    | _ => none
  | _ => none

/-- A single name or number. -/
def single : Forest → Option Text
  | .word w .nil => some w
  | _ => none

/-- The members of `struct osmo_gtlv_coding`, other than `ti`. -/
inductive Field where
  | membOfs | pitch | decFunc | encFunc | strFunc | nested | hasCount | countMax | countMandatory | countOfs | hasPresence | presenceOfs
  deriving DecidableEq

def fieldNames : List (Text × Field) := [
  (lit "memb_ofs", .membOfs), (lit "memb_array_pitch", .pitch), (lit "dec_func", .decFunc), (lit "enc_func", .encFunc),
  (lit "enc_to_str_func", .strFunc), (lit "nested_ies", .nested), (lit "has_count", .hasCount), (lit "count_max", .countMax),
  (lit "count_mandatory", .countMandatory), (lit "count_ofs", .countOfs), (lit "has_presence_flag", .hasPresence),
  (lit "presence_flag_ofs", .presenceOfs)]

/-- The member of that name. -/
def fieldOf (name : Text) : Option Field := (fieldNames.find? fun e => e.1 = name).map (·.2)

/-- `.FIELD = VALUE` -/
def CCoding.set (e : CCoding) (f : Field) (v : Forest) : Option CCoding :=
  match f with
  | .membOfs => (typePath (lit "offsetof") v).map fun p => { e with membOfs := some p }
  | .pitch => (typePath (lit "OSMO_MEMB_ARRAY_PITCH") v).map fun p => { e with pitch := some p }
  | .decFunc => (single v).map fun w => { e with decFunc := some w }
  | .encFunc => (single v).map fun w => { e with encFunc := some w }
  | .strFunc => (single v).map fun w => { e with strFunc := some w }
  | .nested => (single v).map fun w => { e with nested := some w }
  | .hasCount => if single v = some (lit "true") then some { e with hasCount := true } else none
  | .countMax => ((single v).bind decimal).map fun n => { e with countMax := n }
  | .countMandatory => ((single v).bind decimal).map fun n => { e with countMandatory := n }
  | .countOfs => (typePath (lit "offsetof") v).map fun p => { e with countOfs := some p }
  | .hasPresence => if single v = some (lit "true") then some { e with hasPresence := true } else none
  | .presenceOfs => (typePath (lit "offsetof") v).map fun p => { e with presenceOfs := some p }

/-- `.FIELD = VALUE, ..` -/
def designated : List Forest → CCoding → Option CCoding
  | [], e => some e
  | .sym 46 (.word name (.sym 61 v)) :: l, e =>
    (fieldOf name).bind fun f => (e.set f v).bind fun e => designated l e
  | _ :: _, _ => none

/-- `{ TAG }` or `{ TAG, true, INSTANCE }` -/
def tagInit (f : Forest) : Option CCoding :=
  match f.commas .nil with
  | [.word t .nil] => some { tag := t }
  | [.word t .nil, .word b .nil, .word i .nil] => if b = lit "true" then some { tag := t, inst := some i } else none
  | _ => none

/-- An element of an array of `struct osmo_gtlv_coding`. -/
def codingOf (f : Forest) : Option CCoding :=
  match f.commas .nil with
  | .grp 123 t .nil :: l => (tagInit t).bind (designated l)
  | _ => none

/-- The elements of such an array, up to the terminating `{}`. -/
def codingsOf : List Forest → Option (List CCoding)
  | [] => none
  | .grp 123 f .nil :: l => if f = .nil then some [] else (codingOf f).bind fun e => (codingsOf l).bind fun es => some (e :: es)
  | _ :: _ => none

/-- `[INDEX] = NAME, ..` -/
def indexed : List Forest → Option (List (Text × Text))
  | [] => some []
  | .grp 91 (.word i .nil) (.sym 61 (.word n .nil)) :: l => (indexed l).map ((i, n) :: ·)
  | _ :: _ => none

/-- A declaration: the definition of a struct or union; `static const struct osmo_gtlv_coding NAME[] = { ... {} }`;
`static const struct osmo_gtlv_coding *NAME[] = { [INDEX] = ELEMENT, ... }`; or anything else. -/
inductive CItem where
  | aggregate (type : Text) (members : List CDecl)
  | codings (name : Text) (entries : List CCoding)
  | pointers (name : Text) (elements : List (Text × Text))
  | other (text : Text)
  deriving DecidableEq

/-- Read a declaration. -/
def itemOf (f : Forest) : Option CItem :=
  match f.words with
  | (w :: ws, .grp 123 m .nil) => (m.semicolons .nil).bind fun l => (l.mapM memberOf).map (.aggregate (spaced (w :: ws)))
  | ([a, b, c, d, name], .grp 91 .nil (.sym 61 (.grp 123 es .nil))) =>
    if spaced [a, b, c, d] = lit "static const struct osmo_gtlv_coding" then (codingsOf (es.commas .nil)).map (.codings name)
    else none
  | ([a, b, c, d], .sym 42 (.word name (.grp 91 .nil (.sym 61 (.grp 123 es .nil))))) =>
    if spaced [a, b, c, d] = lit "static const struct osmo_gtlv_coding" then (indexed (es.commas .nil)).map (.pointers name)
    else none
  | _ => some (.other (glue f.toks))

/-- Read a file. -/
def readFile (t : Text) : Option (List CItem) :=
  (tokens t).bind fun l => (nest l .nil []).bind fun f => (f.declarations .nil).bind fun l => l.mapM itemOf

/-! ### What must be read -/

/-- A word. -/
def Word (w : Text) : Prop := w ≠ [] ∧ ∀ c ∈ w, identChar c = true

/-- A type name: words with a space between them. -/
def TypeName (t : Text) : Prop := ∃ ws : List Text, ws ≠ [] ∧ (∀ w ∈ ws, Word w) ∧ t = spaced ws

/-- It can be put into a comment. -/
def InComment (t : Text) : Prop := (Lex.comment.run (t ++ lit " */\n")) = (.code [], [])

/-- It contains nothing but directives and comments. -/
def Quiet (t : Text) : Prop := (Lex.code []).run t = (.code [], [])

/-- Names are names in C, types are type names, and what is put into comments does not end them. -/
structure Printable (c : GCfg) (file : Text) (ms : List GMsg) : Prop where
  file : InComment file
  proto : Word c.protoName
  header : ∀ h, c.hHeader = some h ∨ c.cHeader = some h → Quiet (lit "\n" ++ h ++ lit "\n")
  enum : TypeName (c.messageTypeEnum.getD (lit "int"))
  tagPrefix : ∀ x ∈ c.tagPrefix, identChar x = true
  msgPrefix : ∀ x ∈ c.messageTypePrefix, identChar x = true
  msg : ∀ m ∈ ms, Word m.name
  name : ∀ o i, (o, i) ∈ occs ms → Word o.name
  tag : ∀ o i, (o, i) ∈ occs ms → Word (nameOf o i)
  type : ∀ o i, (o, i) ∈ occs ms → TypeName (c.decodedType o i)
  func : ∀ o i, (o, i) ∈ occs ms → Word (i.decEnc.getD (nameOf o i))
  inst : ∀ o i t, (o, i) ∈ occs ms → o.inst = some t → Word t
  spec : ∀ o i n s, (o, i, n) ∈ groups ms → i.specRef = some s → ∃ p, c.specRefPrefix = some p ∧ InComment (p ++ s)

/-- The members that a `CMemb` declares: `bool NAME_present`, then `TYPE NAME`, or `TYPE NAME[MULTI]` and
`unsigned int NAME_count`. -/
def membDecls (m : CMemb) : List CDecl :=
  (if m.presence then [{ type := lit "bool", name := m.name ++ lit "_present" }] else []) ++
  (if m.multi = 0 then [{ type := m.type, name := m.name }]
   else [{ type := m.type, name := m.name, dim := some m.multi }, { type := lit "unsigned int", name := m.name ++ lit "_count" }])

/-- The definition of a struct. -/
def structItem (s : CStruct) : CItem := .aggregate s.type (s.members.flatMap membDecls)

/-- The initialiser that a `CHead` stands for, where the member is `MEMB` or `SUB.MEMB`. -/
def headCoding (h : CHead) : CCoding :=
  let path := if h.sub = [] then h.memb else h.sub ++ lit "." ++ h.memb
  { tag := h.tag, inst := h.inst, membOfs := some (h.obj, path)
    hasCount := h.multi ≠ 0, countMax := h.multi, countMandatory := if h.multi = 0 then 0 else h.mandatory
    pitch := if h.multi = 0 then none else some (h.obj, path)
    countOfs := if h.multi = 0 then none else some (h.obj, path ++ lit "_count")
    hasPresence := h.presence
    presenceOfs := if h.presence then some (h.obj, path ++ lit "_present") else none }

/-- ... with the functions, or the array of nested IEs. -/
def entryCoding (proto : Text) (str : Bool) (e : CEntry) : CCoding :=
  match e.body with
  | .func s =>
    { headCoding e.head with
      decFunc := some (proto ++ lit "_dec_" ++ s), encFunc := some (proto ++ lit "_enc_" ++ s)
      strFunc := if str then some (proto ++ lit "_enc_to_str_" ++ s) else none }
  | .nested a => { headCoding e.head with nested := some a }

/-- An array. -/
def arrayItem (proto : Text) (str : Bool) (a : CArray) : CItem := .codings a.name (a.entries.map (entryCoding proto str))

/-- The functions of an IE. -/
def externItems (p : Text) (str : Bool) (s : Text) : List CItem :=
  [.other (lit "extern int " ++ p ++ lit "_dec_" ++ s ++ lit "(void*decoded_struct,void*decode_to,const struct osmo_gtlv_load*gtlv)"),
   .other (lit "extern int " ++ p ++ lit "_enc_" ++ s ++ lit "(struct osmo_gtlv_put*gtlv,const void*decoded_struct,const void*encode_from)")] ++
  if str then [.other (lit "extern int " ++ p ++ lit "_enc_to_str_" ++ s ++ lit "(char*buf,size_t buflen,const void*encode_from)")] else []

/-- The four functions that are generated: `p` is the name of the protocol, `e` the type of message types. -/
def getCodingHead (p e : Text) : Text := lit "const struct osmo_gtlv_coding*" ++ p ++ lit "_get_msg_coding(" ++ e ++ lit " message_type)"
def iesDecodeHead (p e : Text) : Text :=
  lit "int " ++ p ++ lit "_ies_decode(union " ++ p ++ lit "_ies*dst,struct osmo_gtlv_load*gtlv,bool tlv_ordered," ++ e ++
    lit " message_type,osmo_gtlv_err_cb err_cb,void*err_cb_data,const struct value_string*iei_strs)"
def iesEncodeHead (p e : Text) : Text :=
  lit "int " ++ p ++ lit "_ies_encode(struct osmo_gtlv_put*gtlv,const union " ++ p ++ lit "_ies*src," ++ e ++
    lit " message_type,osmo_gtlv_err_cb err_cb,void*err_cb_data,const struct value_string*iei_strs)"
def iesToStrHead (p e : Text) : Text :=
  lit "int " ++ p ++ lit "_ies_encode_to_str(char*buf,size_t buflen,const union " ++ p ++ lit "_ies*src," ++ e ++
    lit " message_type,const struct value_string*iei_strs)"
def getCodingBody : Text := lit "{if(message_type>=ARRAY_SIZE(msg_defs))return NULL;return msg_defs[message_type];}"
def iesDecodeBody (p : Text) : Text :=
  lit "{return osmo_gtlvs_decode(dst,sizeof(*dst),0,gtlv,tlv_ordered," ++ p ++ lit "_get_msg_coding(message_type),err_cb,err_cb_data,iei_strs);}"
def iesEncodeBody (p : Text) : Text :=
  lit "{return osmo_gtlvs_encode(gtlv,src,sizeof(*src),0," ++ p ++ lit "_get_msg_coding(message_type),err_cb,err_cb_data,iei_strs);}"
def iesToStrBody (p : Text) : Text :=
  lit "{return osmo_gtlvs_encode_to_str_buf(buf,buflen,src,sizeof(*src),0," ++ p ++ lit "_get_msg_coding(message_type),iei_strs);}"

/-- The header: the structs, the union of all messages, and the functions. -/
def headerItems (c : GCfg) (ms : List GMsg) (ss : List CStruct) : List CItem :=
  let e := c.messageTypeEnum.getD (lit "int")
  ss.map structItem ++
  [.aggregate (lit "union " ++ c.protoName ++ lit "_ies")
    (ms.map fun m => { type := lit "struct " ++ c.protoName ++ lit "_msg_" ++ m.name, name := m.name })] ++
  [.other (getCodingHead c.protoName e), .other (iesDecodeHead c.protoName e), .other (iesEncodeHead c.protoName e),
   .other (iesToStrHead c.protoName e)]

/-- The C file: the functions that the user has to provide, the arrays, `msg_defs`, and the functions. -/
def sourceItems (c : GCfg) (g : GenC) : List CItem :=
  let e := c.messageTypeEnum.getD (lit "int")
  g.externs.flatMap (externItems c.protoName c.addEncToStr) ++
  g.arrays.map (arrayItem c.protoName c.addEncToStr) ++
  [.pointers (lit "msg_defs") g.msgs] ++
  [.other (getCodingHead c.protoName e ++ getCodingBody), .other (iesDecodeHead c.protoName e ++ iesDecodeBody c.protoName),
   .other (iesEncodeHead c.protoName e ++ iesEncodeBody c.protoName), .other (iesToStrHead c.protoName e ++ iesToStrBody c.protoName)]

end Verif.Spec
