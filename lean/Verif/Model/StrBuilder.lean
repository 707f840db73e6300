import Verif.Model.CStr
/-!
# StrBuilder

Models base/dependencies/strings.hpp 293-600 and strings.cpp. A `StrBuilder` is its header fields and the `Capacity + 1`
character cells allocated behind the header; a cell is `none` while it has never been written. Any access outside the
cells, and any read of an unwritten cell, is `ub`. Every allocation succeeds. The 32-bit truncation of `alloc_size`
(strings.cpp 12, 41) for sizes of 2 GiB and more is not modelled.
-/
namespace Verif

/-- strings.hpp 161-165 `StrBuilderHeader` and the characters. -/
structure SB where
  cap : Nat
  len : Nat
  data : List (Option UInt8)
  deriving Repr, DecidableEq

namespace SB

/-- Read one character. -/
def read (d : List (Option UInt8)) (i : Nat) : Res UInt8 :=
  match d[i]? with
  | some (some b) => .ok b
  | _ => .ub

/-- Read `n` characters from offset `i`. -/
def readN (d : List (Option UInt8)) (i : Nat) : Nat → Res Bytes
  | 0 => .ok []
  | n+1 => (read d i).bind fun b => (readN d (i+1) n).bind fun bs => .ok (b :: bs)

/-- Write the bytes `bs` from offset `i` on. -/
def write (d : List (Option UInt8)) (i : Nat) (bs : Bytes) : Res (List (Option UInt8)) :=
  if i + bs.length ≤ d.length then .ok (d.take i ++ bs.map some ++ d.drop (i + bs.length)) else .ub

/-- The first `n` bytes readable at a source pointer. -/
def source (src : Bytes) (n : Nat) : Res Bytes := if n ≤ src.length then .ok (src.take n) else .ub

/-- strings.cpp 8-36 `strbuilder_make_length` (`src = none` is a null pointer). -/
def makeLength (src : Option Bytes) (length : Nat) : Res SB :=
  let fresh : List (Option UInt8) := List.replicate (length + 1) none
  let filled : Res (List (Option UInt8)) :=
    match src with
    | some s => if length ≠ 0 then (source s length).bind fun bs => write fresh 0 bs
                else write fresh 0 (List.replicate (length + 1) 0)
    | none => write fresh 0 (List.replicate (length + 1) 0)
  filled.bind fun d => (write d length [0]).bind fun d => .ok ⟨length, length, d⟩

/-- strings.cpp 38-58 `strbuilder_make_reserve`. -/
def makeReserve (capacity : Nat) : SB := ⟨capacity, 0, List.replicate (capacity + 1) (some 0)⟩

/-- strings.hpp 298-302 `strbuilder_make_c_str` (`none` is null). -/
def makeCStr (buf : Option Bytes) : Res SB :=
  match buf with
  | none => makeLength none 0
  | some b => (CStr.len b).bind fun n => makeLength (some b) n

/-- strings.hpp 304-307 `strbuilder_make_str`. -/
def makeStr (s : Bytes) : Res SB := makeLength (some s) s.length

/-- strings.hpp 413-417 `strbuilder_avail_space`. -/
def availSpace (sb : SB) : Int := (sb.cap : Int) - sb.len

/-- strings.hpp 292-296 `strbuilder_grow_formula`. -/
def growFormula (n : Nat) : Nat := 4 * n + 8

/-- strings.cpp 60-92 `strbuilder_make_space_for`; `resize` keeps the old `Length + 1` characters (theorem
`C07_resize_grow`), the rest of the new block is unwritten. -/
def makeSpaceFor (sb : SB) (addLen : Nat) : Res SB :=
  if sb.availSpace ≥ addLen then .ok sb
  else
    let newLen := growFormula (sb.len + addLen)
    if sb.len + 1 ≤ sb.data.length then
      .ok { sb with cap := newLen, data := sb.data.take (sb.len + 1) ++ List.replicate (newLen - sb.len) none }
    else .ub

/-- strings.cpp 94-114 `strbuilder_append_c_str_len` for a source outside the builder's own block. -/
def appendLen (sb : SB) (src : Option Bytes) (n : Nat) : Res (Bool × SB) :=
  match src with
  | none => .ok (false, sb)
  | some s =>
    (makeSpaceFor sb n).bind fun sb' =>
    (source s n).bind fun bs =>
    (write sb'.data sb.len bs).bind fun d =>
    (write d (sb.len + n) [0]).bind fun d =>
    .ok (true, { sb' with data := d, len := sb.len + n })

/-- strings.hpp 349-353 `strbuilder_append_char`. -/
def appendChar (sb : SB) (c : UInt8) : Res (Bool × SB) := sb.appendLen (some [c]) 1

/-- strings.hpp 355-359 `strbuilder_append_c_str` of a non-null string. -/
def appendCStr (sb : SB) (buf : Bytes) : Res (Bool × SB) := (CStr.len buf).bind fun n => sb.appendLen (some buf) n

/-- strings.hpp 361-365 `strbuilder_append_str`. -/
def appendStr (sb : SB) (s : Bytes) : Res (Bool × SB) := sb.appendLen (some s) s.length

/-- strings.hpp 367-371 `strbuilder_append_string` of another builder. -/
def appendString (sb other : SB) : Res (Bool × SB) :=
  (readN other.data 0 other.len).bind fun bs => sb.appendLen (some bs) other.len

/-- strings.hpp 367-371 `strbuilder_append_string` of the builder itself, on an allocator whose `resize` releases the old
block (the heap): the source pointer is fetched before `strbuilder_make_space_for` moves the characters. -/
def appendSelf (sb : SB) : Res (Bool × SB) :=
  if sb.availSpace ≥ sb.len then sb.appendString sb else .ub

/-- strings.hpp 470-473 `strbuilder_clear`. -/
def clear (sb : SB) : SB := { sb with len := 0 }

/-- strings.hpp 475-478 `strbuilder_duplicate`. -/
def duplicate (sb : SB) : Res SB :=
  (readN sb.data 0 sb.len).bind fun bs => makeLength (some bs) sb.len

/-- strings.cpp 123-124: first loop of `strbuilder_trim`; `k` characters lie between `start_pos` and `end_pos` inclusive. -/
def trimStart (d : List (Option UInt8)) (cut : Bytes) : Nat → Nat → Res Nat
  | 0, s => .ok s
  | k+1, s => (read d s).bind fun c => (CStr.charFirstOccurence cut c).bind fun o =>
      if o.isSome then trimStart d cut k (s+1) else .ok s

/-- strings.cpp 126-127: second loop of `strbuilder_trim`; `e` is `end_pos + 1`, `k = end_pos - start_pos`. -/
def trimEnd (d : List (Option UInt8)) (cut : Bytes) : Nat → Nat → Res Nat
  | 0, e => .ok e
  | k+1, e => (read d (e-1)).bind fun c => (CStr.charFirstOccurence cut c).bind fun o =>
      if o.isSome then trimEnd d cut k (e-1) else .ok e

/-- strings.cpp 116-137 `strbuilder_trim`. -/
def trim (sb : SB) (cut : Bytes) : Res SB :=
  (trimStart sb.data cut sb.len 0).bind fun s =>
  (trimEnd sb.data cut (sb.len - 1 - s) sb.len).bind fun e =>
  let len := if s ≥ e then 0 else e - s
  (readN sb.data s len).bind fun bs =>
  (write sb.data 0 bs).bind fun d =>
  (write d len [0]).bind fun d =>
  .ok { sb with data := d, len := len }

/-- strings.hpp 569-572 `strbuilder_trim_space`. -/
def trimSpace (sb : SB) : Res SB := sb.trim (b!" \t\r\n" ++ [11, 12, 0])

/-- strings.hpp 548-556: the loop of `strbuilder_strip_space`; fuel: the characters of the block. -/
def stripLoop : Nat → List (Option UInt8) → Nat → Nat → Res (List (Option UInt8) × Nat)
  | 0, _, _, _ => .ub
  | fuel+1, d, r, w => (read d r).bind fun c =>
      if c = 0 then .ok (d, w)
      else if charIsSpace c then stripLoop fuel d (r+1) w
      else (write d w [c]).bind fun d => stripLoop fuel d (r+1) (w+1)

/-- strings.hpp 541-561 `strbuilder_strip_space`. -/
def stripSpace (sb : SB) : Res SB :=
  (stripLoop sb.data.length sb.data 0 0).bind fun p =>
  (write p.1 p.2 [0]).bind fun d => .ok { sb with data := d, len := p.2 }

/-- strings.cpp 146-171: the loop of `strbuilder_visualize_whitespace` (also `str_visualize_whitespace`). -/
def visualizeLoop : Bytes → SB → Res SB
  | [], r => .ok r
  | c :: cs, r =>
    (if c = 32 then r.appendStr b!"·"
     else if c = 9 then r.appendStr b!"→"
     else if c = 10 then r.appendStr b!"↵"
     else if c = 13 then r.appendStr b!"⏎"
     else if c = 11 then r.appendStr b!"⇕"
     else if c = 12 then r.appendStr b!"⌂"
     else r.appendChar c).bind fun p => visualizeLoop cs p.2

/-- strings.cpp 139-174 `strbuilder_visualize_whitespace`. -/
def visualizeWhitespace (sb : SB) : Res SB :=
  (readN sb.data 0 sb.len).bind fun bs => visualizeLoop bs (makeReserve (sb.len * 2))

/-- strings.hpp 338-344: the loop of `strbuilder_join`. -/
def joinLoop (glue : Bytes) (n : Nat) : List Bytes → Nat → SB → Res SB
  | [], _, r => .ok r
  | p :: ps, idx, r => (r.appendCStr p).bind fun x =>
      if (idx : Int) < (n : Int) - 1 then (x.2.appendCStr glue).bind fun y => joinLoop glue n ps (idx+1) y.2
      else joinLoop glue n ps (idx+1) x.2

/-- strings.hpp 333-347 `strbuilder_join`. -/
def join (parts : List Bytes) (glue : Bytes) : Res SB :=
  (makeCStr (some [0])).bind fun r => joinLoop glue parts.length parts 0 r

/-- strings.hpp 523-526: the loop of `strbuilder_skip_line`. -/
def skipScan (d : List (Option UInt8)) : Nat → Nat → Res Nat
  | 0, _ => .ub
  | fuel+1, i => (read d i).bind fun c => if c ≠ 13 ∧ c ≠ 10 then skipScan d fuel (i+1) else .ok i

/-- strings.hpp 520-539 `strbuilder_skip_line`: note that it moves `new_length` characters, the number *skipped*. -/
def skipLine (sb : SB) : Res SB :=
  (skipScan sb.data sb.data.length 0).bind fun i =>
  (read sb.data i).bind fun c =>
  let n := if c = 13 then i + 1 else i
  (readN sb.data i n).bind fun bs =>
  (write sb.data 0 bs).bind fun d => .ok { sb with data := d, len := n }

/-- What a C-string reader sees: characters up to the first NUL. -/
def cView (sb : SB) : Res Bytes :=
  let rec go : Nat → Nat → Res Bytes
    | 0, _ => .ub
    | fuel+1, i => (read sb.data i).bind fun c => if c = 0 then .ok [] else (go fuel (i+1)).bind fun bs => .ok (c :: bs)
  go sb.data.length 0

end SB
end Verif
