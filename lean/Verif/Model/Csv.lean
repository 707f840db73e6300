import Verif.Model.CStr
/-!
# Parsing comma-separated values (base/dependencies/parsing.cpp 810-1006)

The text is a C string that is changed in place, and the cells point into it. Every write goes to or behind the first character of the cell
being read, so what lies in front of it is final: the state is the rest of the buffer from `currentChar` on (with its NUL), and the columns
hold the C strings their cells point to. Adding a column (`adt_append_arr`) goes through `array_append_at`, which does not write its item, but
the new node is initialised at once by `adt_set_arr`: a new empty column. The conversion of hexadecimal cells to numbers never happens: the
loop that looks for a character that is no hexadecimal digit always finds the NUL (`C37_no_numbers`). Simplifications: allocation does not
fail; only the type and text of a cell are kept.
-/
namespace Verif.Csv
open Verif.CStr

/-- parsing.hpp `CSV_Error`. -/
inductive Error where
  | none
  | unexpectedEnd
  | mismatchedRows
  deriving DecidableEq, Repr

/-- The variables of the loop. -/
structure State where
  /-- the buffer from `currentChar` on -/
  rest : Bytes
  /-- `root->nodes`: the texts of the cells of each column -/
  cols : List (List Bytes)
  columnIndex : Nat
  totalColumnIndex : Nat
  deriving DecidableEq, Repr

/-- `*( p + i )`. -/
def at_ (b : Bytes) (i : Nat) : Res UInt8 := Res.ofOption b[i]?

/-- `*( p + i ) = c`. -/
def put (b : Bytes) (i : Nat) (c : UInt8) : Res Bytes := if i < b.length then .ok (b.set i c) else .ub

/-- parsing.cpp 855-866: the loop over a quoted string: `endChar`. -/
def quoteEnd (b : Bytes) : Nat → Nat → Res Nat
  | 0, _ => .hang
  | fuel + 1, e =>
    (skip (b.drop e) 34).bind fun n =>
    let e := e + n
    (at_ b e).bind fun c =>
    if c = 0 then .ok e else
    (at_ b (e + 1)).bind fun d =>
    if d = 34 then
      (at_ b (e + 2)).bind fun c => if c = 0 then .ok (e + 2) else quoteEnd b fuel (e + 2)
    else .ok e

/-- parsing.cpp 885 `mem_move( escapedChar, escapedChar + 1, c_str_len( escapedChar ) )`. -/
def closeUp (b : Bytes) (p : Nat) : Res Bytes :=
  (CStr.len (b.drop p)).bind fun n =>
  if p + 1 + n ≤ b.length then .ok (b.take p ++ (b.drop (p + 1)).take n ++ b.drop (p + n)) else .ub

/-- parsing.cpp 879-890: the loop that unescapes quotes. -/
def unescape : Nat → Bytes → Nat → Res Bytes
  | 0, _, _ => .hang
  | fuel + 1, b, p =>
    (at_ b p).bind fun c =>
    (if c = 34 then (at_ b (p + 1)).bind fun d => .ok (decide (d = 34)) else .ok false).bind fun two =>
    (if two then closeUp b p else .ok b).bind fun b =>
    (at_ b (p + 1)).bind fun c =>
    if c = 0 then .ok b else unescape fuel b (p + 1)

/-- The text of a cell, the delimiter behind it, and the buffer from there on. -/
structure Cell where
  text : Bytes
  delimiter : UInt8
  rest : Bytes

/-- parsing.cpp 844-891: a quoted cell; `b` begins behind the quote. `none`: the quote is not closed. -/
def quoted (b : Bytes) : Res (Option Cell) :=
  (quoteEnd b (b.length + 1) 0).bind fun e =>
  (at_ b e).bind fun c =>
  if c = 0 then .ok none else
  (put b e 0).bind fun b =>
  (trim (b.drop (e + 1)) true).bind fun n =>
  let cur := e + 1 + n
  (at_ b cur).bind fun delimiter =>
  (unescape (b.length + 1) b 0).bind fun b =>
  (CStr.len b).bind fun l =>
  .ok (some ⟨b.take l, delimiter, b.drop cur⟩)

/-- parsing.cpp 905-909: `do { endChar++; } while ( * endChar && * endChar != delim && * endChar != '\n' );` -/
def plainEnd (delim : UInt8) (b : Bytes) : Nat → Nat → Res Nat
  | 0, _ => .hang
  | fuel + 1, e =>
    (at_ b (e + 1)).bind fun c => if c ≠ 0 ∧ c ≠ delim ∧ c ≠ 10 then plainEnd delim b fuel (e + 1) else .ok (e + 1)

/-- parsing.cpp 915-918: `while ( char_is_space( *( endChar - 1 ) ) ) endChar--;` -/
def backUp (b : Bytes) : Nat → Res Nat
  | 0 => .ub
  | e + 1 => (at_ b e).bind fun c => if charIsSpace c then backUp b e else .ok (e + 1)

/-- parsing.cpp 938-945: the loop that looks for a character that is no hexadecimal digit: `skip_number`. -/
def noHex : Bytes → Res Bool
  | [] => .ub
  | c :: b => if !charIsHexDigit c then .ok true else if c ≠ 0 then noHex b else .ok false

/-- parsing.cpp 930-956: whether the cell `t` (a C string) is converted to a number. -/
def isNumber (t : Bytes) : Res Bool :=
  (CStr.len t).bind fun n =>
  if n > 2 ∧ t[0]? = some 48 ∧ (t[1]? = some 120 ∨ t[1]? = some 88) then (noHex (t.drop 2)).bind fun skip => .ok (!skip) else .ok false

/-- parsing.cpp 898-928: regular data; `b` begins with it. -/
def plain (delim : UInt8) (b : Bytes) : Res Cell :=
  (plainEnd delim b (b.length + 1) 0).bind fun e =>
  (at_ b e).bind fun c =>
  if c = 0 then .ok ⟨b.take e, 0, b.drop e⟩ else
  (trim (b.drop e) true).bind fun n =>
  (backUp b e).bind fun l =>
  (at_ b (e + n)).bind fun delimiter =>
  (put b l 0).bind fun b => (CStr.len b).bind fun t => .ok ⟨b.take t, delimiter, b.drop (e + n)⟩

/-- parsing.cpp 840-952: a cell; `none`: a quote is not closed. -/
def cell (delim : UInt8) (b : Bytes) : Res (Option Cell) :=
  (at_ b 0).bind fun c =>
  if c = 34 then quoted (b.drop 1)
  else if c = delim then .ok (some ⟨[], c, b⟩)
  else (plain delim b).bind fun x => .ok (some x)

/-- parsing.cpp 954-959: the cell is appended to its column, which is added if it does not exist. -/
def addCell (cols : List (List Bytes)) (i : Nat) (t : Bytes) : List (List Bytes) :=
  let cols := if i ≥ cols.length then cols ++ [[]] else cols
  cols.modify i (· ++ [t])

/-- parsing.cpp 961-985: behind a cell. `none`: the rows are mismatched. -/
def advance (delim : UInt8) (s : State) (x : Cell) : Res (Option State) :=
  let s := { s with rest := x.rest, cols := addCell s.cols s.columnIndex x.text }
  if x.delimiter = delim then .ok (some { s with columnIndex := s.columnIndex + 1, rest := s.rest.drop 1 })
  else if x.delimiter = 10 ∨ x.delimiter = 0 then
    if s.totalColumnIndex < s.columnIndex ∨ s.totalColumnIndex = s.columnIndex then
      .ok (some { s with
        totalColumnIndex := max s.totalColumnIndex s.columnIndex, columnIndex := 0,
        rest := if x.delimiter ≠ 0 then s.rest.drop 1 else s.rest })
    else .ok none
  else .ok (some s)

/-- parsing.cpp 826-987: the loop: the error, or the columns. -/
def loop (delim : UInt8) : Nat → State → Res (Error × List (List Bytes))
  | 0, _ => .hang
  | fuel + 1, s =>
    (trim s.rest false).bind fun n =>
    let b := s.rest.drop n
    (at_ b 0).bind fun c =>
    if c = 0 then .ok (.none, s.cols) else
    (cell delim b).bind fun
    | none => .ok (.unexpectedEnd, s.cols)
    | some x =>
      (advance delim s x).bind fun
      | none => .ok (.mismatchedRows, addCell s.cols s.columnIndex x.text)
      | some s => (at_ s.rest 0).bind fun c => if c = 0 then .ok (.none, s.cols) else loop delim fuel s

/-- A column: its name and its cells. -/
structure Column where
  name : Option Bytes
  cells : List Bytes
  deriving DecidableEq, Repr

/-- parsing.cpp 996-1005: the first row as the header. A column always has a cell. -/
def header (cells : List Bytes) : Column := ⟨cells.head?, cells.drop 1⟩

/-- parsing.cpp 810-1006 `csv_parse_delimiter`; `text` is the content without its NUL. -/
def parse (text : Bytes) (hasHeader : Bool) (delim : UInt8) : Res (Error × List Column) :=
  (loop delim (text.length + 2) ⟨text ++ [0], [], 0, 0⟩).bind fun r =>
  if r.1 ≠ .none then .ok (r.1, r.2.map (⟨none, ·⟩))
  else if r.2.length = 0 then .ok (.unexpectedEnd, [])
  else .ok (.none, r.2.map fun c => if hasHeader then header c else ⟨none, c⟩)

end Verif.Csv
