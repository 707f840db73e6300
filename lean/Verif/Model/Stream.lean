import Verif.Model.Array
import Verif.Model.Bytes
/-!
# Files in memory

Models the streams of base/dependencies/filesystem.cpp 463-657 (`file_stream_*`, `memory_file_operations`) and the calls of
base/dependencies/filesystem.hpp 279-384 that go through them. Offsets and sizes are `Int` (s64 and ssize, which do not overflow). A byte of the buffer is
`none` where nothing has been stored since it was allocated (the allocators of the library put 0 there). The allocation of the descriptor succeeds; whether
the buffer can grow is the parameter `mem`. The descriptor is filled with 0 by the allocator, so the cursor starts at 0. Files of the operating system are
in Model/Files.lean.
-/
namespace Verif

/-- filesystem.cpp 463-473 `_memory_fd`, and filesystem.hpp 253-263 `FileStreamFlags`. A buffer that is not cloned is the caller's memory: then the counters of
`buf` have no meaning. -/
structure Stream where
  writable : Bool
  clone : Bool
  buf : Arr UInt8
  cursor : Int
  cap : Int
  deriving Repr, DecidableEq

/-- `SeekWhenceType` (filesystem.hpp). -/
inductive Whence where
  | begin
  | current
  | atEnd

namespace Stream

/-- filesystem.cpp 496-521 `file_stream_new`. -/
def new (mem : Bool) : Res (Option Stream) := do
  match ← Arr.init mem with
  | none => pure none
  | some a => pure (some ⟨false, true, a, 0, 0⟩)

/-- filesystem.cpp 523-557 `file_stream_open`: the clone is an array with the bytes of the buffer, or the buffer itself is used. -/
def openOn (mem : Bool) (buffer : List (Option UInt8)) (writable clone : Bool) : Res (Option Stream) := do
  if clone then
    match ← Arr.initReserve mem buffer.length with
    | none => pure none
    | some a =>
      let a ← a.copyIn 0 buffer
      pure (some ⟨writable, clone, { a with num := buffer.length }, 0, buffer.length⟩)
  else pure (some ⟨writable, clone, ⟨0, 0, buffer⟩, 0, buffer.length⟩)

/-- filesystem.cpp 559-566 `file_stream_buf`: the buffer and its size. -/
def contents (d : Stream) : Arr UInt8 × Int := (d.buf, d.cap)

/-- filesystem.cpp 568-583 `_memory_file_seek`. -/
def seekFrom (d : Stream) (offset : Int) (whence : Whence) : Int × Stream :=
  let start := match whence with
    | .begin => 0
    | .current => d.cursor
    | .atEnd => d.cap
  let cursor := max 0 (min (max (start + offset) 0) d.cap)
  (cursor, { d with cursor := cursor })

/-- filesystem.cpp 585-594 `_memory_file_read` (filesystem.hpp 342-353): `mem_copy` from the buffer, without a look at its size. -/
def readAt (d : Stream) (size offset : Int) : Res (List (Option UInt8)) :=
  if 0 ≤ offset ∧ 0 ≤ size ∧ offset + size ≤ d.buf.cells.length then .ok ((d.buf.cells.drop offset.toNat).take size.toNat) else .ub

/-- `mem_copy( d->buf + offset, buffer, n )` for the first `n` bytes of `data`; a negative `n` is a size far beyond everything. -/
def copyTo (a : Arr UInt8) (offset n : Int) (data : Bytes) : Res (Arr UInt8) :=
  if 0 ≤ offset ∧ 0 ≤ n then a.copyIn offset.toNat ((data.take n.toNat).map some) else .ub

/-- filesystem.cpp 596-640 `_memory_file_write` (filesystem.hpp 365-384): success, `bytes_written`. -/
def writeAt (mem : Bool) (d : Stream) (data : Bytes) (offset : Int) : Res (Bool × Int × Stream) := do
  if !(d.clone || d.writable) then return (false, 0, d)
  let extralen : Int := max 0 (data.length - (d.cap - offset))
  let rwlen : Int := data.length - extralen
  let newCap : Int := d.cap + extralen
  let (ok, buf) ← if d.clone && decide ((d.buf.capacity : Int) < newCap) then Arr.grow .cpp true mem d.buf newCap.toNat else Res.ok (true, d.buf)
  if ok = false then return (false, 0, d)
  let buf ← copyTo buf offset rwlen data
  if d.clone && decide (extralen > 0) then
    let buf ← copyTo buf (offset + rwlen) extralen (data.drop rwlen.toNat)
    return (true, rwlen + extralen, { d with buf := { buf with capacity := newCap.toNat }, cap := newCap })
  return (true, rwlen, { d with buf := buf })

/-- filesystem.hpp 296-306 `file_seek`. -/
def seek (d : Stream) (offset : Int) : Int × Stream := d.seekFrom offset .begin

/-- filesystem.hpp 308-318 `file_seek_to_end`. -/
def seekEnd (d : Stream) : Int × Stream := d.seekFrom 0 .atEnd

/-- filesystem.hpp 320-330 `file_tell`. -/
def tell (d : Stream) : Int × Stream := d.seekFrom 0 .current

/-- filesystem.cpp 419-430 `file_size`. -/
def size (d : Stream) : Int × Stream :=
  let (prev, d) := d.tell
  let (_, d) := d.seekEnd
  let (size, d) := d.tell
  let (_, d) := d.seek prev
  (size, d)

/-- filesystem.hpp 332-339 `file_read`. -/
def read (d : Stream) (size : Int) : Res (List (Option UInt8) × Stream) := do
  let (cur, d) := d.tell
  let (at', d) := d.tell
  let bytes ← d.readAt size at'
  let (_, d) := d.seek (cur + size)
  pure (bytes, d)

/-- filesystem.hpp 355-363 `file_write`. -/
def write (mem : Bool) (d : Stream) (data : Bytes) : Res (Bool × Stream) := do
  let (cur, d) := d.tell
  let (at', d) := d.tell
  let (ok, _, d) ← d.writeAt mem data at'
  let (_, d) := d.seek (cur + data.length)
  pure (ok, d)

end Stream
end Verif
