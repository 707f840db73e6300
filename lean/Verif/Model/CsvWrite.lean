import Verif.Model.Csv
import Verif.Model.Printing
import Verif.Model.Stream
/-!
# Writing comma-separated values

Models base/dependencies/parsing.cpp 735-764 (`adt_print_string`) and 1012-1116 (`csv_write_delimiter`, `csv_write_strbuilder_delimiter`).

Every call of `file_write` is one piece; `csv_write_delimiter` does not look at the results, so the model of the writing is the list of the pieces, and
what a file makes of them is its own matter (`toStream` for a stream in memory).

Simplifications: cells are texts (`EADT_TYPE_STRING`; `csv_parse` makes no others, `C37_no_numbers`), so `adt_print_number` is not modelled. The style of a
cell is `EADT_NAME_STYLE_DOUBLE_QUOTE` or `EADT_NAME_STYLE_NO_QUOTES`; the style of a column is the first, which is 0, and `csv_parse` sets no other.
The static buffer of `c_str_fmt_file_va` is taken to be filled with 0; the text written does not depend on it (`C36_exact_partial`).
-/
namespace Verif.CsvWrite
open Verif.Fmt

/-- A cell: its text, and whether its style is `EADT_NAME_STYLE_DOUBLE_QUOTE`. -/
structure Cell where
  text : Bytes
  quotes : Bool
  deriving DecidableEq, Repr

/-- A column: its name (a null pointer if there is none), and its cells. -/
structure Column where
  name : Option Bytes
  cells : List Cell
  deriving DecidableEq, Repr

/-- printing.cpp 552-568 `c_str_fmt_file_va`: the bytes handed to `file_write`. A text that does not fit gives a length of -1, and -2 bytes are written. -/
def fileFmt (lt : Bool) (fmt : Bytes) (args : List Arg) : Res Bytes :=
  (cStrFmt lt (List.replicate printfMax 0) printfMax (fmt ++ [0]) args).bind fun (buf, len) =>
  if len - 1 < 0 then .ub else .ok (buf.take (len - 1).toNat)

/-- parsing.cpp 750-761: the loop of `adt_print_string` from the pointer `b`, for the list of characters to be escaped and the symbol put in front of them. -/
def printLoop (lt : Bool) (escaped symbol : Bytes) : Nat → Bytes → Res (List Bytes)
  | 0, _ => .hang
  | fuel + 1, b => do
    let n ← CStr.skipAny b (escaped ++ [0])
    let chunk ← fileFmt lt b!"%.*s" [.int n, .cstr (some b)]
    let c ← Csv.at_ b n
    if c ≠ 0 ∧ escaped.contains c then
      let esc ← fileFmt lt b!"%s%c" [.cstr (some (symbol ++ [0])), .int c.toNat]
      let d ← Csv.at_ b (n + 1)
      if d ≠ 0 then
        let more ← printLoop lt escaped symbol fuel (b.drop (n + 1))
        pure (chunk :: esc :: more)
      else pure [chunk, esc]
    else if c ≠ 0 then
      let more ← printLoop lt escaped symbol fuel (b.drop n)
      pure (chunk :: more)
    else pure [chunk]

/-- parsing.cpp 735-764 `adt_print_string`: nothing for a null pointer. -/
def printString (lt : Bool) (escaped symbol : Bytes) : Option Bytes → Res (List Bytes)
  | none => .ok []
  | some t => printLoop lt escaped symbol (t.length + 1) (t ++ [0])

/-- parsing.cpp 1012-1048 `_csv_write_record`, for a text. -/
def writeRecord (lt : Bool) (text : Option Bytes) (quotes : Bool) : Res (List Bytes) := do
  if quotes then
    let a ← fileFmt lt b!"\"" []
    let m ← printString lt b!"\"" b!"\"" text
    let z ← fileFmt lt b!"\"" []
    pure (a :: m ++ [z])
  else
    let a ← fileFmt lt b!"%s" [.cstr (text.map (· ++ [0]))]
    pure [a]

/-- parsing.cpp 1079-1082, 1092-1095: the delimiter, unless this was the last column. -/
def separator (lt : Bool) (delim : UInt8) (more : List Column) : Res (List Bytes) :=
  if more.isEmpty then .ok [] else (fileFmt lt b!"%c" [.int delim.toNat]).bind fun x => .ok [x]

/-- parsing.cpp 1076-1083: the names. -/
def writeNames (lt : Bool) (delim : UInt8) : List Column → Res (List Bytes)
  | [] => .ok []
  | c :: cs => do
    let a ← writeRecord lt c.name true
    let s ← separator lt delim cs
    let r ← writeNames lt delim cs
    pure (a ++ s ++ r)

/-- parsing.cpp 1088-1095: row `r`. A column that is shorter than the first one is read behind its end. -/
def writeRow (lt : Bool) (delim : UInt8) (r : Nat) : List Column → Res (List Bytes)
  | [] => .ok []
  | c :: cs => do
    let x ← Res.ofOption c.cells[r]?
    let a ← writeRecord lt (some x.text) x.quotes
    let s ← separator lt delim cs
    let m ← writeRow lt delim r cs
    pure (a ++ s ++ m)

/-- parsing.cpp 1086-1097: the rows from `r` on, `n` of them. -/
def writeRows (lt : Bool) (delim : UInt8) (cols : List Column) : Nat → Nat → Res (List Bytes)
  | 0, _ => .ok []
  | n + 1, r => do
    let a ← writeRow lt delim r cols
    let e ← fileFmt lt b!"\n" []
    let m ← writeRows lt delim cols n (r + 1)
    pure (a ++ e :: m)

/-- parsing.cpp 1072-1085: the first line. -/
def writeHeader (lt : Bool) (delim : UInt8) (named : Bool) (cols : List Column) : Res (List Bytes) :=
  if named then (writeNames lt delim cols).bind fun a => (fileFmt lt b!"\n" []).bind fun e => .ok (a ++ [e]) else .ok []

/-- parsing.cpp 1058-1098 `csv_write_delimiter`: the pieces written. -/
def write (lt : Bool) (delim : UInt8) : List Column → Res (List Bytes)
  | [] => .ok []
  | c :: cs =>
    if c.cells.length = 0 then .ok [] else do
    let h ← writeHeader lt delim c.name.isSome (c :: cs)
    let m ← writeRows lt delim (c :: cs) c.cells.length 0
    pure (h ++ m)

/-- The pieces, written to a stream in memory one after the other. -/
def toStream (mem : Bool) : Stream → List Bytes → Res Stream
  | d, [] => .ok d
  | d, x :: xs => (d.write mem x).bind fun (_, d) => toStream mem d xs

/-- parsing.cpp 1100-1112 `csv_write_strbuilder_delimiter`: the bytes of the string (`none` where the stream holds no byte that was written). -/
def writeString (lt mem : Bool) (delim : UInt8) (cols : List Column) : Res (Option (List (Option UInt8))) := do
  match ← Stream.new mem with
  | none => pure none
  | some d =>
    let ps ← write lt delim cols
    let d ← toStream mem d ps
    let (buf, n) := d.contents
    pure (some (buf.cells.take n.toNat))

end Verif.CsvWrite
