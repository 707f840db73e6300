import Verif.Model.Files
import Verif.Model.TokenFmt
import Verif.Model.ParserApi
/-!
# Enums and their tables of names from comma-separated values (base/helpers/base_codegen.hpp)

`gen_ecode`, `gen_eoperator` and `gen_especifier`: an enum, and a function that gives the text of an enumerator. The templates are what `stringize` makes of the source text
(macros.hpp 94-95: white space becomes one blank, and macros are expanded: `GEN_U32_MAX` is `0xffffffffu`, basic_types.hpp 19; the template of the enum in `gen_ecode` is a string literal, in which they
are not). Not modelled: the pair `num`, which no template mentions; the parts that do not depend on the file (`spec_is_trailing`, `str_to_specifier`, the `typedef`, the aliases); putting the codes into one
body (see C21); the definitions for C, whose template has `enum_underlying(u32)` in place of `: u32`.
-/
namespace Verif.EnumTables
open Verif.Os Verif.Files

/-- The words that the tables differ in. -/
structure Words where
  /-- the name of the enum -/
  enum : Bytes
  /-- what the enumerators begin with -/
  lead : Bytes
  /-- the enumerator that counts the others -/
  count : Bytes
  /-- the function -/
  fn : Bytes
  /-- its parameter -/
  arg : Bytes
  /-- the room the builders begin with -/
  room : Nat
  /-- the value of the last enumerator: a number, if there is one, and a word right behind it -/
  digits : Bytes
  word : Bytes
  /-- the blanks in a row, behind the brace and behind the comma -/
  inner : Bytes
  outer : Bytes

/-- base_codegen.hpp 91-171 `gen_eoperator`. -/
def operators : Words := ⟨b!"Operator", b!"Op_", b!"Op_NumOps", b!"operator_to_str", b!"op", 32, b!"0xffffffff", b!"u", b!" ", b!" "⟩

/-- base_codegen.hpp 173-318 `gen_especifier`. -/
def specifiers : Words := ⟨b!"Specifier", b!"Spec_", b!"Spec_NumSpecifiers", b!"spec_to_str", b!"type", 1024, b!"0xffffffff", b!"u", b!" ", b!" "⟩

/-- base_codegen.hpp 10-79 `gen_ecode`: the enum, and the table of its names. -/
def codes : Words := ⟨b!"CodeType", b!"CT_", b!"CT_NumTypes", b!"codetype_to_str", b!"type", 1024, [], b!"GEN_U32_MAX", b!" ", b!"  "⟩

/-- base_codegen.hpp 10-79 `gen_ecode`: the table of keywords. -/
def keywords : Words := { codes with fn := b!"codetype_to_keyword_str", inner := b!"  ", outer := b!" " }

/-- base_codegen.hpp 23-24, 101 and 184: a row of the table. -/
def rowTemplate (t : Words) : Bytes := b!"{" ++ t.inner ++ b!"\"%s\"," ++ t.outer ++ b!"sizeof(\"%s\") - 1 },\n"

/-- base_codegen.hpp 97-102 and 179-185: the loop over the rows. The second column is read as far as the first one goes. -/
def rows (lt : Bool) (t : Words) : List Bytes → List Bytes → SB → SB → Res (SB × SB)
  | [], _, entries, names => .ok (entries, names)
  | _ :: _, [], _, _ => .ub
  | x :: xs, y :: ys, entries, names => do
    let (_, entries) ← Fmt.appendFmt lt entries (t.lead ++ b!"%s,\n" ++ [0]) [.cstr (some (x ++ [0]))]
    let (_, names) ← Fmt.appendFmt lt names (rowTemplate t ++ [0]) [.cstr (some (y ++ [0])), .cstr (some (y ++ [0]))]
    rows lt t xs ys entries names

/-- base_codegen.hpp 35, 121-128 and 204-211: the template of the enum. -/
def enumTemplate (t : Words) : Bytes :=
  b!"enum " ++ t.enum ++ b!" : u32 { <entries> " ++ t.count ++ b!", " ++ t.lead ++ b!"UnderlyingType = " ++ t.digits ++ t.word ++ b!" };"

/-- base_codegen.hpp 46-65, 137-148 and 247-258: the template of the function. -/
def fnTemplate (t : Words) (token : Bytes) : Bytes :=
  b!"inline Str " ++ t.fn ++ b!"( " ++ t.enum ++ b!" " ++ t.arg ++ b!" ) { local_persist Str lookup[] = { <" ++ token ++ b!"> }; return lookup[ " ++ t.arg ++ b!" ]; }"

/-- inlines.hpp 739-752 `token_fmt_impl` with the one pair `entries`: the text. `crit` is when the map grows (see Model/HashTable.lean). -/
def format (crit : Nat → Nat) (tbl : HTable Bytes) (entries template : Bytes) : Res (Bytes × HTable Bytes) :=
  TokenFmt.tokenFmtVa crit Fmt.printfMax tbl [(b!"entries" ++ [0], entries)] (template ++ [0])

/-- base_codegen.hpp 91-148 and 173-258: the enum and the function. -/
def generate (lt : Bool) (crit : Nat → Nat) (t : Words) (tbl : HTable Bytes) (w : Parse.World) (s : Sys) (path : Bytes) : Res ((Nat × Nat) × HTable Bytes × Parse.World × Sys) := do
  let ((xs, ys), s) ← parseCsvTwoColumns s path
  let (entries, names) ← rows lt t xs ys (SB.makeReserve t.room) (SB.makeReserve t.room)
  let entries ← SB.readN entries.data 0 entries.len
  let (text, tbl) ← format crit tbl entries (enumTemplate t)
  let (code, w) ← Parse.parse_enum w text
  let names ← SB.readN names.data 0 names.len
  let (text, tbl) ← format crit tbl names (fnTemplate t b!"entries")
  let (fn, w) ← Parse.parse_function w text
  return ((code, fn), tbl, w, s)

/-- base_codegen.hpp 18-26: the loop over the rows in `gen_ecode`. The second column is read as far as the first one goes. -/
def codeRows (lt : Bool) : List Bytes → List Bytes → SB → SB → SB → Res (SB × SB × SB)
  | [], _, entries, names, words => .ok (entries, names, words)
  | _ :: _, [], _, _, _ => .ub
  | x :: xs, y :: ys, entries, names, words => do
    let (_, entries) ← Fmt.appendFmt lt entries (b!"CT_%s,\n" ++ [0]) [.cstr (some (x ++ [0]))]
    let (_, names) ← Fmt.appendFmt lt names (rowTemplate codes ++ [0]) [.cstr (some (x ++ [0])), .cstr (some (x ++ [0]))]
    let (_, words) ← Fmt.appendFmt lt words (rowTemplate keywords ++ [0]) [.cstr (some (y ++ [0])), .cstr (some (y ++ [0]))]
    codeRows lt xs ys entries names words

/-- base_codegen.hpp 46-65: the template of the two functions. -/
def codeFnsTemplate : Bytes := fnTemplate codes b!"entries" ++ b!" " ++ fnTemplate keywords b!"keywords"

/-- base_codegen.hpp 10-66: the enum, and the body with the two functions. -/
def generateCodes (lt : Bool) (crit : Nat → Nat) (tbl : HTable Bytes) (w : Parse.World) (s : Sys) (path : Bytes) : Res ((Nat × Nat) × HTable Bytes × Parse.World × Sys) := do
  let ((xs, ys), s) ← parseCsvTwoColumns s path
  let (entries, names, words) ← codeRows lt xs ys (SB.makeReserve 1024) (SB.makeReserve 1024) (SB.makeReserve 1024)
  let entries ← SB.readN entries.data 0 entries.len
  let (text, tbl) ← format crit tbl entries (enumTemplate codes)
  let (code, w) ← Parse.parse_enum w text
  let names ← SB.readN names.data 0 names.len
  let words ← SB.readN words.data 0 words.len
  let (text, tbl) ← TokenFmt.tokenFmtVa crit Fmt.printfMax tbl [(b!"entries" ++ [0], names), (b!"keywords" ++ [0], words)] (codeFnsTemplate ++ [0])
  let (fns, w) ← Parse.parse_global_body w text
  return ((code, fns), tbl, w, s)

end Verif.EnumTables
