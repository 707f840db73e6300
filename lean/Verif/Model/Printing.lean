import Verif.Model.Numbers
import Verif.Model.StrBuilder
/-!
# Formatted printing

Models base/dependencies/printing.cpp 8-520 and `strbuilder_append_fmt` / `strbuilder_fmt_buf` (strings.hpp 320-331, 374-385).

* The destination is the list of the bytes of the buffer; writing outside it is `ub`. `text` is an offset into it.
* `va_list` is the list of the arguments that remain. Taking an argument of another kind than the one passed, or more than were
  passed, is `ub`.
* The conversions `f F g G a A` (`_print_f64`) are not modelled: the model answers `stop` for them.
* `num[130]` (printing.cpp 120, 127) is uninitialised in the source and zero here; `Num.i64ToStr_eq` shows that the text does not
  depend on its contents.
-/
namespace Verif.Fmt

/-- A variadic argument. -/
inductive Arg where
  /-- an integer of any width, as its value -/
  | int (v : Int)
  /-- `char*`: null, or the bytes from the pointer to the end of the object it points into -/
  | cstr (p : Option Bytes)
  /-- `Str` -/
  | str (p : Option Bytes) (len : Nat)
  /-- `StrBuilder`: the bytes of its block, and its length -/
  | sb (data : Bytes) (len : Nat)
  deriving DecidableEq, Repr

/-- printing.cpp 22-28: the size class; `GEN_FMT_INT` is never set. -/
inductive Size where
  | char | short | int | long | llong | size | intptr
  deriving DecidableEq, Repr

/-- printing.cpp 8-43 `_format_info`, with the flags one by one (`GEN_FMT_PLUS`, `GEN_FMT_ALT` and `GEN_FMT_SPACE` are set but
not read by the conversions modelled here). -/
structure Info where
  base : Nat := 0
  minus : Bool := false
  zero : Bool := false
  widthFlag : Bool := false
  unsigned : Bool := false
  lower : Bool := false
  upper : Bool := false
  size : Size := .int
  width : Int := 0
  precision : Int := -1
  deriving DecidableEq, Repr

/-- `while ( padding-- > 0 && remaining-- > 0 ) *text++ = pad, res++;` (printing.cpp 78-79, 88-89): the buffer and the number of
characters written at offset `i`. -/
def padLoop (pad : UInt8) : Nat → Nat → Bytes → Nat → Res (Bytes × Nat)
  | padding + 1, remaining + 1, buf, i =>
    (Num.put buf i pad).bind fun buf => (padLoop pad padding remaining buf (i + 1)).bind fun r => .ok (r.1, r.2 + 1)
  | _, _, buf, _ => .ok (buf, 0)

/-- `c_str_copy_nulpad( text, str, len )` with `text` at offset `i`. -/
def copyAt (buf : Bytes) (i : Nat) (str : Option Bytes) (len : Nat) : Res (Bytes × Nat) :=
  if i ≤ buf.length then (CStr.copyNulpad (buf.drop i) str len).bind fun r => .ok (buf.take i ++ r.1, r.2) else .ub

/-- printing.cpp 96-102: the case conversion runs from the start of this conversion's output to the next NUL of the buffer. -/
def caseConv (info : Info) (buf : Bytes) (i : Nat) : Res Bytes :=
  if info.upper then (CStr.toUpper (buf.drop i)).bind fun r => .ok (buf.take i ++ r)
  else if info.lower then (CStr.toLower (buf.drop i)).bind fun r => .ok (buf.take i ++ r)
  else .ok buf

/-- printing.cpp 45-105 `_print_string` with `info` present; `i` is the offset of `text`. -/
def printString (buf : Bytes) (i maxLen : Nat) (info : Info) (str : Option Bytes) : Res (Bytes × Nat) :=
  if str = none ∧ maxLen ≥ 6 then copyAt buf i (some (b!"(null)" ++ [0])) 6 else
  (if info.precision ≥ 0 then Res.ok info.precision.toNat
   else match str with
    | none => Res.ok 0
    | some s => CStr.len s).bind fun len =>
  if info.width = 0 ∧ info.widthFlag then .ok (buf, 0) else
  let pad : UInt8 := if info.zero then 48 else 32
  if info.width = 0 ∨ info.minus then
    if len > maxLen then .ok (buf, 0) else
    (copyAt buf i str len).bind fun (buf, res) =>
    (if info.width > res then padLoop pad (info.width - len).toNat maxLen buf (i + res) else .ok (buf, 0)).bind fun (buf, n) =>
    (caseConv info buf i).bind fun buf => .ok (buf, res + n)
  else
    (if info.width > 0 then padLoop pad (info.width - len).toNat maxLen buf i else .ok (buf, 0)).bind fun (buf, n) =>
    if n + len > maxLen then .ok (buf, n) else
    (copyAt buf (i + n) str len).bind fun (buf, res) =>
    (caseConv info buf i).bind fun buf => .ok (buf, n + res)

/-- printing.cpp 107-112 `_print_char`. -/
def printChar (buf : Bytes) (i maxLen : Nat) (info : Info) (c : UInt8) : Res (Bytes × Nat) :=
  printString buf i maxLen info (some [c, 0])

/-- The loop of printing.cpp 119-120. -/
def repeatLoop (c : UInt8) : Nat → Bytes → Nat → Res Bytes
  | 0, buf, _ => .ok buf
  | n + 1, buf, i => (Num.put buf i c).bind fun buf => repeatLoop c n buf (i + 1)

/-- printing.cpp 114-123 `_print_repeated_char`: no regard to `max_len`. -/
def printRepeated (buf : Bytes) (i : Nat) (info : Info) (c : UInt8) : Res (Bytes × Nat) :=
  let rem := if info.width > 0 then info.width.toNat else 1
  (repeatLoop c rem buf i).bind fun buf => .ok (buf, rem)

/-- printing.cpp 125-130 `_print_i64`. -/
def printI64 (buf : Bytes) (i maxLen : Nat) (info : Info) (v : Int) : Res (Bytes × Nat) :=
  (Num.i64ToStr v (List.replicate 130 0) info.base).bind fun s => printString buf i maxLen info (some s)

/-- printing.cpp 132-137 `_print_u64`. -/
def printU64 (buf : Bytes) (i maxLen : Nat) (info : Info) (v : Nat) : Res (Bytes × Nat) :=
  (Num.u64ToStr v (List.replicate 130 0) info.base).bind fun s => printString buf i maxLen info (some s)

/-- printing.cpp 234-235: the literal run. Returns the rest of the format, the buffer and the offset. -/
def literalRun (remaining : Nat) : Bytes → Bytes → Nat → Res (Bytes × Bytes × Nat)
  | [], _, _ => .ub
  | c :: cs, buf, i =>
    if c = 0 ∨ c = 37 ∨ remaining = 0 then .ok (c :: cs, buf, i)
    else (Num.put buf i c).bind fun buf => literalRun remaining cs buf (i + 1)

/-- printing.cpp 239-273: the flags; the argument is the format after the `++fmt`. -/
def flagLoop : Bytes → Info → Res (Bytes × Info)
  | [], _ => .ub
  | c :: cs, info =>
    if c = 45 then flagLoop cs { info with minus := true }
    else if c = 43 ∨ c = 35 ∨ c = 32 then flagLoop cs info
    else if c = 48 then flagLoop cs { info with zero := true, widthFlag := true }
    else .ok (c :: cs, info)

/-- `va_arg( va, int )`. -/
def takeInt : List Arg → Res (Int × List Arg)
  | .int v :: as => .ok (Int.bmod v (2 ^ 32), as)
  | _ => .ub

/-- printing.cpp 276-298: the width. `lt` is the address order `c_str_to_i64` may look at (`Num.scan`; not in base 10). -/
def widthPart (lt : Bool) (fmt : Bytes) (info : Info) (args : List Arg) : Res (Bytes × Info × List Arg) :=
  match fmt with
  | [] => .ub
  | c :: cs =>
    if c = 42 then
      (takeInt args).bind fun (w, args) =>
      if w < 0 then .ok (cs, { info with minus := true, width := -w, widthFlag := true }, args)
      else .ok (cs, { info with width := w, widthFlag := true }, args)
    else
      (Num.cStrToI64 lt fmt 10).bind fun (v, n) =>
      let w := Int.bmod v (2 ^ 32)
      .ok (fmt.drop n, { info with width := w, widthFlag := info.widthFlag || decide (w ≠ 0) }, args)

/-- printing.cpp 301-314: the precision. -/
def precisionPart (lt : Bool) (fmt : Bytes) (info : Info) (args : List Arg) : Res (Bytes × Info × List Arg) :=
  match fmt with
  | [] => .ub
  | c :: cs =>
    if c ≠ 46 then .ok (fmt, info, args) else
    match cs with
    | [] => .ub
    | d :: ds =>
      if d = 42 then (takeInt args).bind fun (p, args) => .ok (ds, { info with precision := p, zero := false }, args)
      else (Num.cStrToI64 lt cs 10).bind fun (v, n) =>
        .ok (cs.drop n, { info with precision := Int.bmod v (2 ^ 32), zero := false }, args)

/-- printing.cpp 316-354: the size. -/
def sizePart (fmt : Bytes) (info : Info) : Res (Bytes × Info) :=
  match fmt with
  | [] => .ub
  | c :: cs =>
    if c = 104 then
      match cs with
      | [] => .ub
      | d :: ds => if d = 104 then .ok (ds, { info with size := .char }) else .ok (cs, { info with size := .short })
    else if c = 108 then
      match cs with
      | [] => .ub
      | d :: ds => if d = 108 then .ok (ds, { info with size := .llong }) else .ok (cs, { info with size := .long })
    else if c = 122 then .ok (cs, { info with unsigned := true, size := .size })
    else if c = 116 then .ok (cs, { info with size := .size })
    else .ok (fmt, info)

/-- printing.cpp 461-488: the argument of an unsigned conversion. -/
def unsignedValue (s : Size) (v : Int) : Nat :=
  match s with
  | .char => (v % 2 ^ 8).toNat
  | .short => (v % 2 ^ 16).toNat
  | .int => (v % 2 ^ 32).toNat
  | _ => (v % 2 ^ 64).toNat

/-- printing.cpp 493-520: the argument of a signed conversion. -/
def signedValue (s : Size) (v : Int) : Int :=
  match s with
  | .char => Int.bmod v (2 ^ 8)
  | .short => Int.bmod v (2 ^ 16)
  | .int => Int.bmod v (2 ^ 32)
  | _ => Int.bmod v (2 ^ 64)

/-- printing.cpp 459-523: the integer conversions. -/
def intConv (buf : Bytes) (i remaining : Nat) (info : Info) (args : List Arg) : Res (Bytes × Nat × List Arg) :=
  match args with
  | .int v :: args =>
    (if info.unsigned then printU64 buf i remaining info (unsignedValue info.size v)
     else printI64 buf i remaining info (signedValue info.size v)).bind fun (buf, len) => .ok (buf, len, args)
  | _ => .ub

/-- printing.cpp 356-523: the conversion character and what it does. Returns the rest of the format (after the `fmt++` of 457), the
buffer, `len` and the arguments left. An unknown character is left for the next turn. -/
def convPart (fmt : Bytes) (buf : Bytes) (i remaining : Nat) (info : Info) (args : List Arg) :
    Res (Bytes × Bytes × Nat × List Arg) :=
  match fmt with
  | [] => .ub
  | c :: cs =>
    let int (info : Info) : Res (Bytes × Bytes × Nat × List Arg) :=
      (intConv buf i remaining info args).bind fun (buf, len, args) => .ok (cs, buf, len, args)
    if c = 117 then int { info with unsigned := true, base := 10 }
    else if c = 100 ∨ c = 105 then int { info with base := 10 }
    else if c = 111 then int { info with base := 8 }
    else if c = 120 then int { info with base := 16, unsigned := true, lower := true }
    else if c = 88 then int { info with base := 16, unsigned := true, upper := true }
    else if c = 112 then int { info with base := 16, lower := true, unsigned := true, size := .intptr }
    else if c = 102 ∨ c = 70 ∨ c = 103 ∨ c = 71 ∨ c = 97 ∨ c = 65 then .stop
    else if c = 99 then
      (takeInt args).bind fun (v, args) =>
      (printChar buf i remaining info (UInt8.ofNat (v % 256).toNat)).bind fun (buf, len) => .ok (cs, buf, len, args)
    else if c = 115 then
      match args with
      | .cstr p :: args => (printString buf i remaining info p).bind fun (buf, len) => .ok (cs, buf, len, args)
      | _ => .ub
    else if c = 83 then
      match cs with
      | [] => .ub
      | d :: ds =>
        if d = 66 then
          match args with
          | .sb data n :: args =>
            (printString buf i remaining { info with precision := n } (some data)).bind fun (buf, len) => .ok (ds, buf, len, args)
          | _ => .ub
        else
          match args with
          | .str p n :: args =>
            (printString buf i remaining { info with precision := n } p).bind fun (buf, len) => .ok (cs, buf, len, args)
          | _ => .ub
    else if c = 114 then
      (takeInt args).bind fun (v, args) =>
      (printRepeated buf i info (UInt8.ofNat (v % 256).toNat)).bind fun (buf, len) => .ok (cs, buf, len, args)
    else if c = 37 then (printChar buf i remaining info 37).bind fun (buf, len) => .ok (cs, buf, len, args)
    else .ok (fmt, buf, 0, args)

/-- The state of the outer loop. -/
structure State where
  fmt : Bytes
  buf : Bytes
  pos : Nat
  remaining : Nat
  args : List Arg
  deriving DecidableEq, Repr

/-- printing.cpp 226-529: one turn of the outer loop. -/
def turn (lt : Bool) (s : State) : Res State :=
  (literalRun s.remaining s.fmt s.buf s.pos).bind fun (fmt, buf, pos) =>
  (match fmt with
   | [] => Res.ub
   | c :: cs => if c = 37 then flagLoop cs {} else Res.ok (fmt, {})).bind fun (fmt, info) =>
  (widthPart lt fmt info s.args).bind fun (fmt, info, args) =>
  (precisionPart lt fmt info args).bind fun (fmt, info, args) =>
  (sizePart fmt info).bind fun (fmt, info) =>
  (convPart fmt buf pos s.remaining info args).bind fun (fmt, buf, len, args) =>
  .ok { fmt := fmt, buf := buf, pos := pos + len, args := args,
        remaining := if len ≥ s.remaining then min s.remaining 1 else s.remaining - len }

/-- printing.cpp 226: the outer loop. Every turn that makes progress consumes a byte of the format, and a turn that does not leaves
everything as it was: the fuel is the length of the format. -/
def outer (lt : Bool) : Nat → State → Res State
  | fuel, s =>
    match s.fmt with
    | [] => .ub
    | c :: _ =>
      if c = 0 then .ok s
      else match fuel with
        | 0 => .hang
        | fuel + 1 => (turn lt s).bind fun s => outer lt fuel s

/-- printing.cpp 221-534 `c_str_fmt_va( text, max_len, fmt, va )`: the buffer and the return value. -/
def cStrFmt (lt : Bool) (buf : Bytes) (maxLen : Nat) (fmt : Bytes) (args : List Arg) : Res (Bytes × Int) :=
  (outer lt fmt.length { fmt := fmt, buf := buf, pos := 0, remaining := maxLen, args := args }).bind fun s =>
  (Num.put s.buf s.pos 0).bind fun buf =>
  let res := s.pos + 1
  .ok (buf, if res ≥ maxLen then -1 else (res : Int))

/-- `GEN_PRINTF_MAXLEN` (printing.hpp 11: `kilobytes(128)`). -/
def printfMax : Nat := 131072

/-- strings.hpp 374-385 `strbuilder_append_fmt`: a zeroed buffer of `printfMax` bytes of which one less is announced. A failed
call returns -1; the length passed on is then -2, which `memcpy` takes for a huge size: `ub`. -/
def appendFmt (lt : Bool) (sb : SB) (fmt : Bytes) (args : List Arg) : Res (Bool × SB) :=
  (cStrFmt lt (List.replicate printfMax 0) (printfMax - 1) fmt args).bind fun (buf, res) =>
  if res - 1 < 0 then .ub else sb.appendLen (some buf) (res - 1).toNat

/-- strings.hpp 320-331 `strbuilder_fmt_buf`. -/
def fmtBuf (lt : Bool) (static : Bytes) (fmt : Bytes) (args : List Arg) : Res SB :=
  (cStrFmt lt static printfMax fmt args).bind fun (buf, res) =>
  if res - 1 < 0 then .ub else SB.makeLength (some buf) (res - 1).toNat

end Verif.Fmt
