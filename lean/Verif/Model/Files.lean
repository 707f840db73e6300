import Verif.Model.Os
import Verif.Model.Builder
import Verif.Model.Scanner
import Verif.Model.Csv
import Verif.Model.ParserApi
/-!
# Files of the operating system (base/dependencies/filesystem.cpp, filesystem.hpp; POSIX)

The operating system is `Verif.Os.Os`. A `FileInfo` has its operations set to `default_file_operations` (`ops`) or null; files in memory are
`Verif.Model.Stream`. The name of an open file is a block of the heap, which is freed by `file_close`: freeing a freed block is undefined behaviour.
A buffer byte is `none` where nothing has been stored. Not modelled: the fields `last_write_time` and `dir` (never read); the Windows functions; the log
messages.
-/
namespace Verif.Files
open Verif.Os

structure FileInfo where
  ops : Bool
  fd : Int
  isTemp : Bool
  filename : Option Nat
  deriving Repr, DecidableEq

/-- The process: the operating system, the blocks of the heap with the names of open files, the standard files. -/
structure Sys where
  os : Os.Os
  heap : List (Option Bytes)
  stdSet : Bool
  std : List FileInfo
  deriving Repr, DecidableEq

/-- filesystem.hpp 26-37 `FileError`. -/
inductive FileError where
  | NONE
  | INVALID
  deriving Repr, DecidableEq

/-- filesystem.cpp 185-198 `_posix_file_seek`: success, the new offset if one is stored. -/
def posixSeek (s : Sys) (fd offset : Int) (whence : Whence) : Bool × Option Int × Sys :=
  let (res, o) := s.os.lseek fd offset whence
  if res < 0 then (false, none, { s with os := o }) else (true, some res, { s with os := o })

/-- filesystem.cpp 200-210 `_posix_file_read`: success, the bytes that are stored in the buffer. -/
def posixRead (s : Sys) (fd : Int) (size : Nat) (offset : Int) : Bool × Bytes × Sys :=
  let (res, o) := s.os.pread fd size offset
  match res with
  | none => (false, [], { s with os := o })
  | some b => (true, b, { s with os := o })

/-- filesystem.cpp 212-232 `_posix_file_write`: success, `bytes_written`. -/
def posixWrite (s : Sys) (fd : Int) (d : Bytes) (offset : Int) : Bool × Int × Sys :=
  let (_, new, s) := posixSeek s fd 0 .current
  let curr := new.getD 0
  let (res, o) := if curr = offset then s.os.write fd d else s.os.pwrite fd d offset
  if res < 0 then (false, 0, { s with os := o }) else (true, res, { s with os := o })

/-- filesystem.hpp 8-15 `FileModeFlag`, and the flags filesystem.cpp 242-270 `_posix_file_open` makes of them; `none` is the panic. -/
def osMode (mode : Nat) : Option Flags :=
  if mode % 16 = 1 then some ⟨true, false, false, false, false⟩
  else if mode % 16 = 2 then some ⟨false, true, true, true, false⟩
  else if mode % 16 = 4 then some ⟨false, true, true, false, true⟩
  else if mode % 16 = 9 then some ⟨true, true, false, false, false⟩
  else if mode % 16 = 10 then some ⟨true, true, true, true, false⟩
  else if mode % 16 = 12 then some ⟨true, true, true, false, true⟩
  else none

/-- filesystem.cpp 375-388 `file_new`. -/
def fileNew (s : Sys) (f : FileInfo) (filename : Bytes) : FileInfo × Sys :=
  ({ f with filename := some s.heap.length }, { s with heap := s.heap ++ [some filename] })

/-- filesystem.cpp 395-420 `file_open_mode`, with 242-280 `_posix_file_open`. -/
def fileOpenMode (s : Sys) (mode : Nat) (path : Bytes) : Res (FileError × FileInfo × Sys) :=
  match osMode mode with
  | none => .stop
  | some fl =>
    let (fd, o) := s.os.openAt path fl
    let s := { s with os := o }
    if fd < 0 then .ok (.INVALID, ⟨false, fd, false, none⟩, s)
    else
      let (f, s) := fileNew s ⟨true, fd, false, none⟩ path
      .ok (.NONE, f, s)

/-- filesystem.cpp 390-393 `file_open`. -/
def fileOpen (s : Sys) (path : Bytes) : Res (FileError × FileInfo × Sys) := fileOpenMode s 1 path

/-- `allocator_free( heap(), … )` of the name. -/
def freeName (s : Sys) : Option Nat → Res Sys
  | none => .ok s
  | some b =>
    match s.heap[b]? with
    | some (some _) => .ok { s with heap := s.heap.set b none }
    | _ => .ub

/-- filesystem.cpp 337-373 `file_close`. The close of the operating system is 234-238 `_posix_file_close`. -/
def fileClose (s : Sys) (f : FileInfo) : Res (FileError × FileInfo × Sys) := do
  let s ← freeName s f.filename
  if f.fd < 0 then return (.INVALID, f, s)
  if f.isTemp then
    if f.ops then return (.NONE, f, { s with os := (s.os.closeFd f.fd).2 })
    else .ub
  else return (.NONE, { f with ops := true }, { s with os := (s.os.closeFd f.fd).2 })

/-- filesystem.hpp 136-140 `file_name`. -/
def fileName (s : Sys) (f : FileInfo) : Res Bytes :=
  match f.filename with
  | none => .ok []
  | some b =>
    match s.heap[b]? with
    | some (some t) => .ok t
    | _ => .ub

/-- filesystem.cpp 319-333 `file_get_standard`: the index of the file in `_std_files` is that of the kind (0 input, 1 output, 2 error). -/
def fileGetStandard (s : Sys) : Sys :=
  if s.stdSet then s
  else { s with stdSet := true, std := s.std.zipIdx.map fun x => { x.1 with fd := x.2, ops := true } }

/-- filesystem.hpp 298-309 `file_seek` (the operations are set if they were null, as in all the calls below). -/
def fileSeek (s : Sys) (f : FileInfo) (offset : Int) : Int × FileInfo × Sys :=
  let (_, new, s) := posixSeek s f.fd offset .begin
  (new.getD 0, { f with ops := true }, s)

/-- filesystem.hpp 311-322 `file_seek_to_end`. -/
def fileSeekToEnd (s : Sys) (f : FileInfo) : Int × FileInfo × Sys :=
  let (_, new, s) := posixSeek s f.fd 0 .atEnd
  (new.getD 0, { f with ops := true }, s)

/-- filesystem.hpp 324-335 `file_tell`. -/
def fileTell (s : Sys) (f : FileInfo) : Int × FileInfo × Sys :=
  let (_, new, s) := posixSeek s f.fd 0 .current
  (new.getD 0, { f with ops := true }, s)

/-- filesystem.hpp 346-358 `file_read_at`, `file_read_at_check`: success, the bytes stored in the buffer. -/
def fileReadAt (s : Sys) (f : FileInfo) (size : Nat) (offset : Int) : Bool × Bytes × FileInfo × Sys :=
  let (ok, b, s) := posixRead s f.fd size offset
  (ok, b, { f with ops := true }, s)

/-- filesystem.hpp 337-344 `file_read`. -/
def fileRead (s : Sys) (f : FileInfo) (size : Nat) : Bool × Bytes × FileInfo × Sys :=
  let (cur, f, s) := fileTell s f
  let (at', f, s) := fileTell s f
  let (ok, b, f, s) := fileReadAt s f size at'
  let (_, f, s) := fileSeek s f (cur + size)
  (ok, b, f, s)

/-- filesystem.hpp 371-384 `file_write_at`, `file_write_at_check`: success, `bytes_written`. -/
def fileWriteAt (s : Sys) (f : FileInfo) (d : Bytes) (offset : Int) : Bool × Int × FileInfo × Sys :=
  let (ok, n, s) := posixWrite s f.fd d offset
  (ok, n, { f with ops := true }, s)

/-- filesystem.hpp 360-369 `file_write`. -/
def fileWrite (s : Sys) (f : FileInfo) (d : Bytes) : Bool × FileInfo × Sys :=
  let (cur, f, s) := fileTell s f
  let (at', f, s) := fileTell s f
  let (ok, _, f, s) := fileWriteAt s f d at'
  let (_, f, s) := fileSeek s f (cur + d.length)
  (ok, f, s)

/-- filesystem.cpp 422-433 `file_size`. -/
def fileSize (s : Sys) (f : FileInfo) : Int × FileInfo × Sys :=
  let (prev, f, s) := fileTell s f
  let (_, f, s) := fileSeekToEnd s f
  let (size, f, s) := fileTell s f
  let (_, f, s) := fileSeek s f prev
  (size, f, s)

/-- `FileContents`: the data and the size are `none` where nothing has been stored in them. A byte of the data is `none` where nothing has been stored. -/
structure Contents where
  data : Option (List (Option UInt8))
  size : Option Int
  deriving Repr, DecidableEq

/-- filesystem.cpp 435-461 `file_read_contents`. The allocation succeeds. -/
def fileReadContents (s : Sys) (zeroTerminate : Bool) (path : Bytes) : Res (Contents × Sys) := do
  let (err, f, s) ← fileOpen s path
  if err = .NONE then
    let (fsize, f, s) := fileSize s f
    if 0 < fsize then
      let n := fsize.toNat
      let (_, b, f, s) := fileReadAt s f n 0
      let data := b.map some ++ List.replicate (n - b.length) none
      let data := if zeroTerminate then data ++ [some 0] else data
      let (_, _, s) ← fileClose s f
      return (⟨some data, some fsize⟩, s)
    else
      let (_, _, s) ← fileClose s f
      return (⟨none, none⟩, s)
  else return (⟨none, none⟩, s)

/-! ## What is built on them -/

/-- The text in a buffer; to look at a byte that was never stored is undefined behaviour. -/
def textOf : List (Option UInt8) → Res Bytes
  | [] => .ok []
  | none :: _ => .ub
  | some c :: r => (textOf r).bind fun t => .ok (c :: t)

/-- builder.hpp: a builder is the file and the buffer; the buffer is `none` if it was never made. -/
structure BuilderState where
  file : FileInfo
  buffer : Option SB

/-- builder.cpp 7-24 `builder_open`; `fatal`: failures stop the program (the default). -/
def builderOpen (fatal : Bool) (s : Sys) (size : Nat) (path : Bytes) : Res (BuilderState × Sys) := do
  let (err, f, s) ← fileOpenMode s 2 path
  if err = .NONE then return (⟨f, some (Builder.openFile size)⟩, s)
  else if fatal then .stop
  else return (⟨f, none⟩, s)

/-- builder.cpp 26-52: the calls between opening and writing. -/
def builderRun (lt : Bool) (e : Ser.Env) (fuel : Nat) (b : BuilderState) (l : List Builder.Op) : Res BuilderState :=
  match b.buffer with
  | none => if l = [] then .ok b else .ub
  | some sb => (Builder.run lt e fuel sb l).bind fun sb => .ok { b with buffer := some sb }

/-- builder.cpp 54-64 `builder_write`. -/
def builderWrite (fatal : Bool) (s : Sys) (b : BuilderState) : Res (BuilderState × Sys) :=
  match b.buffer with
  | none => .ub
  | some sb => do
    let d ← Builder.write sb
    let (ok, f, s) := fileWrite s b.file d
    if ok = false ∧ fatal then .stop
    else
      let (_, f, s) ← fileClose s f
      return (⟨f, none⟩, s)

/-- A builder from beginning to end. -/
def builderSession (fatal lt : Bool) (e : Ser.Env) (fuel size : Nat) (s : Sys) (path : Bytes) (l : List Builder.Op) : Res (BuilderState × Sys) := do
  let (b, s) ← builderOpen fatal s size path
  let b ← builderRun lt e fuel b l
  builderWrite fatal s b

/-- scanner.cpp 7-117 `scan_file`: the text of the code (the scan of the content is `Scanner.scanFile`; `str` has `fsize` bytes). -/
def scanPath (lt : Bool) (s : Sys) (path : Bytes) : Res (Bytes × Sys) := do
  let (err, f, s) ← fileOpenMode s 1 path
  if err ≠ .NONE then .stop
  else
    let (fsize, f, s) := fileSize s f
    if fsize ≤ 0 then .stop
    else
      let (_, b, f, s) := fileRead s f fsize.toNat
      let content ← textOf (b.map some ++ List.replicate (fsize.toNat - b.length) none)
      let out ← Scanner.scanFile lt content
      let (_, _, s) ← fileClose s f
      return (out, s)

/-- scanner.cpp 119-125 `parse_file`: the code, the state of the library and the process. -/
def parsePath (w : Parse.World) (s : Sys) (path : Bytes) : Res ((Nat × Parse.World) × Sys) := do
  let (c, s) ← fileReadContents s true path
  match c.data, c.size with
  | some d, some n =>
    let t ← textOf (d.take n.toNat)
    let r ← Parse.parse_global_body w t
    return (r, s)
  | _, _ => .ub

/-- The cells of column `i`: `result.ADT.nodes[ i ].nodes`. -/
def columnOf (cols : List Csv.Column) (i : Nat) : Res (List Bytes) := Res.ofOption ((cols[i]?).map fun c => c.cells)

/-- scanner.cpp 127-135 `parse_csv_one_column`: the cells of the first column. The text ends in front of the first NUL; the result of `csv_parse` is not
looked at. -/
def parseCsvOneColumn (s : Sys) (path : Bytes) : Res (List Bytes × Sys) := do
  let (c, s) ← fileReadContents s true path
  match c.data with
  | some d =>
    let t ← textOf d
    let r ← Csv.parse (t.takeWhile fun b => b != 0) false 44
    let c ← columnOf r.2 0
    return (c, s)
  | none => .ub

/-- scanner.cpp 137-146 `parse_csv_two_columns`. -/
def parseCsvTwoColumns (s : Sys) (path : Bytes) : Res ((List Bytes × List Bytes) × Sys) := do
  let (c, s) ← fileReadContents s true path
  match c.data with
  | some d =>
    let t ← textOf d
    let r ← Csv.parse (t.takeWhile fun b => b != 0) false 44
    let c1 ← columnOf r.2 0
    let c2 ← columnOf r.2 1
    return ((c1, c2), s)
  | none => .ub

end Verif.Files
