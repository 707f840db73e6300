import Verif.Model.CStr
/-!
# Integer formatting and parsing

Models base/dependencies/string_ops.cpp 8-125 (`c_str_to_f64` is not modelled). `s64` values are integers with an explicit
range check: leaving the range is signed overflow, `ub`. `u64` values are naturals below 2^64 (callers' obligation).
The base is a positive integer. Buffers are byte lists; writing past the end is `ub`.
-/
namespace Verif.Num

/-- Is `x` an `s64`? -/
def inS64 (x : Int) : Prop := -(2^63) ≤ x ∧ x < 2^63
instance (x : Int) : Decidable (inS64 x) := by unfold inS64; infer_instance

/-- `x` as the result of a signed 64-bit operation. -/
def s64 (x : Int) : Res Int := if inS64 x then .ok x else .ub

/-- `*buf = c` at offset `i`. -/
def put (buf : Bytes) (i : Nat) (c : UInt8) : Res Bytes := if i < buf.length then .ok (buf.set i c) else .ub

/-- string_ops.cpp 50-54 `_num_to_char_table` with its terminator. -/
def numToChar : Bytes := b!"0123456789ABCDEFGHIJKLMNOPQRSTUVWXYZabcdefghijklmnopqrstuvwxyz@$" ++ [0]

/-- string_ops.cpp 26-30 (the body of the loop of `_scan_zpl_i64`): the value of the next digit, `none` at the end. -/
def digitOf (base : Nat) (c : UInt8) : Option Int :=
  if charIsDigit c then some ((c.toNat : Int) - 48)
  else if base = 16 ∧ charIsHexDigit c then some (hexDigitToInt c)
  else none

/-- string_ops.cpp 24-38: the digit loop of `_scan_zpl_i64`; returns the value and the number of characters consumed. -/
def scanDigits (base : Nat) : Bytes → Int → Res (Int × Nat)
  | [], _ => .ub
  | c :: cs, result =>
    match digitOf base c with
    | none => .ok (result, 0)
    | some v => (s64 (result * base)).bind fun r => (s64 (r + v)).bind fun r =>
        (scanDigits base cs r).bind fun p => .ok (p.1, p.2 + 1)

/-- string_ops.cpp 21-22: skip `0x` in base 16. -/
def skip0x (lt : Bool) (base : Nat) (text : Bytes) : Res Nat :=
  if base = 16 then (CStr.compareLen lt text (b!"0x" ++ [0]) 2).bind fun r => .ok (if r = 0 then 2 else 0) else .ok 0

/-- string_ops.cpp 8-46 `_scan_zpl_i64` (`lt`: the order of the addresses of the text and of the literal `"0x"`). -/
def scan (lt : Bool) (text : Bytes) (base : Nat) : Res (Int × Nat) :=
  match text with
  | [] => .ub
  | c :: cs =>
    let neg := c = 45
    let t := if neg then cs else c :: cs
    (skip0x lt base t).bind fun k =>
    (scanDigits base (t.drop k) 0).bind fun p =>
    (if neg then s64 (-p.1) else .ok p.1).bind fun v =>
    .ok (v, p.2 + k + (if neg then 1 else 0))

/-- string_ops.cpp 61-67: the base meant by `base = 0`. -/
def autoBase (lt : Bool) (str : Bytes) : Res Nat :=
  (CStr.len str).bind fun n =>
    if n > 2 then (CStr.compareLen lt str (b!"0x" ++ [0]) 2).bind fun r => .ok (if r = 0 then 16 else 10) else .ok 10

/-- string_ops.cpp 56-73 `c_str_to_i64`: value and offset of `*end_ptr`. -/
def cStrToI64 (lt : Bool) (str : Bytes) (base : Nat) : Res (Int × Nat) :=
  (if base = 0 then autoBase lt str else .ok base).bind fun b => scan lt str b

/-- string_ops.cpp 90-94, 112-116: the digit loop of `i64_to_str` / `u64_to_str`; least significant digit first, written at
offset `i`. Every round writes one byte, so a loop that does not end runs off the buffer: the fuel is the buffer size. -/
def digitsLoop (base : Nat) : Nat → Nat → Bytes → Nat → Res (Bytes × Nat)
  | fuel, v, buf, i =>
    if v = 0 then .ok (buf, i)
    else if base = 0 then .ub
    else match fuel with
      | 0 => .ub
      | fuel+1 =>
        (Res.ofOption numToChar[v % base]?).bind fun c =>
        (put buf i c).bind fun buf => digitsLoop base fuel (v / base) buf (i+1)

/-- string_ops.cpp 88-99, 110-121: the digits or a single `0`. -/
def digitsOrZero (v : Nat) (buf : Bytes) (base : Nat) : Res (Bytes × Nat) :=
  if v ≠ 0 then digitsLoop base buf.length v buf 0
  else (put buf 0 48).bind fun b => .ok (b, 1)

/-- string_ops.cpp 106-125 `u64_to_str`. -/
def u64ToStr (v : Nat) (buf : Bytes) (base : Nat) : Res Bytes :=
  (digitsOrZero v buf base).bind fun p => (put p.1 p.2 0).bind fun b => CStr.reverse b

/-- string_ops.cpp 100-101: the sign. -/
def putSign (neg : Bool) (p : Bytes × Nat) : Res (Bytes × Nat) :=
  if neg then (put p.1 p.2 45).bind fun b => .ok (b, p.2 + 1) else .ok p

/-- string_ops.cpp 75-104 `i64_to_str`; `value = -value` overflows for the least `s64`. -/
def i64ToStr (value : Int) (buf : Bytes) (base : Nat) : Res Bytes :=
  (if value < 0 then s64 (-value) else .ok value).bind fun v =>
  (digitsOrZero v.toNat buf base).bind fun p =>
  (putSign (decide (value < 0)) p).bind fun p =>
  (put p.1 p.2 0).bind fun b => CStr.reverse b

end Verif.Num
