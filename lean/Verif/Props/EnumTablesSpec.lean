import Verif.Model.EnumTables
import Verif.Props.RoundSpec
import Verif.Props.FilesSpec
import Verif.Props.Csv
/-!
# C65: what is generated from a file of two columns

The specification: the texts of the enum and of the table, one entry for every row of the file.
-/
namespace Verif.EnumTables
open Verif.Lex (Macros)

/-- The words that stand in every table. -/
def Words.fixed (t : Words) : List Bytes :=
  [t.enum, b!"u32", t.count, t.lead ++ b!"UnderlyingType", t.word, b!"Str", t.fn, t.arg, b!"lookup", b!"return", b!"sizeof"]

/-- None of them is a macro. -/
def Free (ms : Macros) (t : Words) : Prop := ∀ x ∈ t.fixed, Lex.lookupMacro ms x = none

/-- One of the tables. -/
def Known (t : Words) : Prop := t = operators ∨ t = specifiers ∨ t = codes ∨ t = keywords

/-- The text of the enumerators in the builder. -/
def entriesText (t : Words) (xs : List Bytes) : Bytes := xs.flatMap fun x => t.lead ++ x ++ b!",\n"

/-- The text of the enum. -/
def enumSource (t : Words) (xs : List Bytes) : Bytes :=
  b!"enum " ++ t.enum ++ b!" : u32 { " ++ entriesText t xs ++ b!" " ++ t.count ++ b!", " ++ t.lead ++ b!"UnderlyingType = " ++ t.digits ++ t.word ++ b!" };"

/-- The enumerators as they are printed. -/
def entriesPrinted (t : Words) (xs : List Bytes) : Bytes := xs.flatMap fun x => t.lead ++ x ++ b!","

/-- The enum as it is printed: the enumerators in order, the one that counts them, the one that makes the type wide enough. -/
def enumPrinted (t : Words) (xs : List Bytes) : Bytes :=
  b!"enum " ++ t.enum ++ b!" : u32\n{\n" ++ (entriesPrinted t xs ++ t.count ++ b!"," ++ t.lead ++ b!"UnderlyingType = " ++ t.digits ++ t.word) ++ b!"\n};\n"

/-- The text of a row of the table. -/
def rowText (t : Words) (y : Bytes) : Bytes := b!"{" ++ t.inner ++ b!"\"" ++ y ++ b!"\"," ++ t.outer ++ b!"sizeof(\"" ++ y ++ b!"\") - 1 },\n"

/-- The rows of the table, in order. -/
def namesText (t : Words) (ys : List Bytes) : Bytes := ys.flatMap (rowText t)

/-- The text of the function. -/
def fnSource (t : Words) (ys : List Bytes) : Bytes :=
  b!"inline Str " ++ t.fn ++ b!"( " ++ t.enum ++ b!" " ++ t.arg ++ b!" ) { local_persist Str lookup[] = { " ++ namesText t ys ++ b!" }; return lookup[ " ++ t.arg ++ b!" ]; }"

/-- The table as it is printed. -/
def fnPrinted (t : Words) (ys : List Bytes) : Bytes :=
  b!" inline\nStr " ++ t.fn ++ b!"( " ++ t.enum ++ b!" " ++ t.arg ++ b!")\n{\nlocal_persist Str lookup[] = { " ++ namesText t ys ++ b!" }; return lookup[ " ++ t.arg ++ b!" ];\n}\n"

/-- The text of the two functions of the codes. -/
def codeFnsSource (xs ys : List Bytes) : Bytes := fnSource codes xs ++ b!" " ++ fnSource keywords ys

end Verif.EnumTables
