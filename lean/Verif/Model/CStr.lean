import Verif.Model.Bytes
import Verif.Model.Res
/-!
# Characters and C strings

Models base/dependencies/string_ops.hpp. A pointer into a character buffer is modelled by the bytes of that buffer from
the pointer on; reading or writing past the end of the buffer is `ub`. A returned pointer is the offset from the argument.
`char` values are `UInt8`: all the comparisons below are against 7-bit characters and give the same answer for signed and
unsigned `char`.
-/
namespace Verif

/-- string_ops.hpp 54-59 `char_is_alpha`. -/
def charIsAlpha (c : UInt8) : Bool := (65 ≤ c && c ≤ 90) || (97 ≤ c && c ≤ 122)

/-- string_ops.hpp 69-74 `char_is_digit`. -/
def charIsDigit (c : UInt8) : Bool := 48 ≤ c && c ≤ 57

/-- string_ops.hpp 63-66 `char_is_alphanumeric`. -/
def charIsAlphanumeric (c : UInt8) : Bool := charIsAlpha c || charIsDigit c

/-- string_ops.hpp 77-82 `char_is_hex_digit`. -/
def charIsHexDigit (c : UInt8) : Bool := charIsDigit c || (97 ≤ c && c ≤ 102) || (65 ≤ c && c ≤ 70)

/-- string_ops.hpp 85-90 `char_is_space`: space, tab, newline, carriage return, form feed, vertical tab. -/
def charIsSpace (c : UInt8) : Bool := c == 32 || c == 9 || c == 10 || c == 13 || c == 12 || c == 11

/-- string_ops.hpp 93-98 `char_to_lower`. -/
def charToLower (c : UInt8) : UInt8 := if 65 ≤ c && c ≤ 90 then 97 + (c - 65) else c

/-- string_ops.hpp 100-105 `char_to_upper`. -/
def charToUpper (c : UInt8) : UInt8 := if 97 ≤ c && c ≤ 122 then 65 + (c - 97) else c

/-- string_ops.hpp 114-123 `hex_digit_to_int` (`digit_to_int`, 108-111, on the digits it is called with). -/
def hexDigitToInt (c : UInt8) : Int :=
  if charIsDigit c then (c.toNat : Int) - 48
  else if 97 ≤ c && c ≤ 102 then (c.toNat : Int) - 97 + 10
  else if 65 ≤ c && c ≤ 70 then (c.toNat : Int) - 65 + 10
  else -1

namespace CStr

/-- string_ops.hpp 42-51 `char_first_occurence`: offset of the result, `none` for null. -/
def charFirstOccurence : Bytes → UInt8 → Res (Option Nat)
  | [], _ => .ub
  | b :: bs, c =>
    if b = c then .ok (some 0)
    else if b = 0 then .ok none
    else (charFirstOccurence bs c).bind fun r => .ok (r.map (· + 1))

/-- string_ops.hpp 126-133 `c_str_compare`. -/
def compare : Bytes → Bytes → Res Int
  | a :: as, b :: bs => if a ≠ 0 ∧ a = b then compare as bs else .ok ((a.toNat : Int) - b.toNat)
  | _, _ => .ub

/-- string_ops.hpp 136-146 `c_str_compare_len`. On a mismatch the sign is that of comparing the two *pointers*; they advance
in lockstep, so it is one fact `lt` about the arguments. -/
def compareLen (lt : Bool) : Bytes → Bytes → Nat → Res Int
  | _, _, 0 => .ok 0
  | a :: as, b :: bs, n+1 =>
    if a ≠ b then .ok (if lt then -1 else 1)
    else if a = 0 then .ok 0
    else compareLen lt as bs n
  | _, _, _+1 => .ub

/-- string_ops.hpp 148-167, 169-193: the two loops shared by `c_str_copy` and `c_str_copy_nulpad`. Returns the destination
buffer and the number of characters taken from the source. -/
def copyLoop : (dest source : Bytes) → (len : Nat) → Res (Bytes × Nat)
  | dest, _, 0 => .ok (dest, 0)
  | _, [], _+1 => .ub
  | [], _ :: _, _+1 => .ub
  | _ :: ds, s :: ss, n+1 =>
    if s = 0 then (copyLoop ds (s :: ss) n).bind fun r => .ok (0 :: r.1, 0)
    else (copyLoop ds ss n).bind fun r => .ok (s :: r.1, r.2 + 1)

/-- string_ops.hpp 148-167 `c_str_copy` (`source = none` is null). -/
def copy (dest : Bytes) (source : Option Bytes) (len : Nat) : Res Bytes :=
  match source with
  | none => .ok dest
  | some s => (copyLoop dest s len).bind fun r => .ok r.1

/-- string_ops.hpp 169-193 `c_str_copy_nulpad`. -/
def copyNulpad (dest : Bytes) (source : Option Bytes) (len : Nat) : Res (Bytes × Nat) :=
  match source with
  | none => .ok (dest, 0)
  | some s => copyLoop dest s len

/-- string_ops.hpp 195-206 `c_str_len` of a non-null pointer. -/
def len : Bytes → Res Nat
  | [] => .ub
  | b :: bs => if b = 0 then .ok 0 else (len bs).bind fun n => .ok (n + 1)

/-- string_ops.hpp 208-215 `c_str_len_capped`: `mem_find` (theorem `C03_mem_find_first`) for a zero byte. -/
def lenCapped (s : Bytes) (maxLen : Nat) : Res Nat :=
  if s.length < maxLen then .ub
  else match (s.take maxLen).findIdx? (· == 0) with
    | some i => .ok i
    | none => .ok maxLen

/-- `swap(*a, *b)`. -/
def swap (s : Bytes) (i j : Nat) : Res Bytes :=
  match s[i]?, s[j]? with
  | some x, some y => .ok ((s.set i y).set j x)
  | _, _ => .ub

/-- string_ops.hpp 224-228: the loop of `c_str_reverse`, `k` more swaps, `a = i`, `b = j`. -/
def reverseLoop : Nat → Bytes → Nat → Nat → Res Bytes
  | 0, s, _, _ => .ok s
  | k+1, s, i, j => (swap s i j).bind fun s' => reverseLoop k s' (i+1) (j-1)

/-- string_ops.hpp 217-230 `c_str_reverse`. -/
def reverse (s : Bytes) : Res Bytes :=
  (len s).bind fun n => reverseLoop (n / 2) s 0 (n - 1)

/-- string_ops.hpp 232-240 `c_str_skip`. -/
def skip : Bytes → UInt8 → Res Nat
  | [], _ => .ub
  | b :: bs, c => if b ≠ 0 ∧ b ≠ c then (skip bs c).bind fun n => .ok (n + 1) else .ok 0

/-- string_ops.hpp 247-251: the loop of `c_str_skip_any` over the remaining characters of the list. -/
def skipAnyLoop (s : Bytes) : Nat → Bytes → Res Nat
  | closest, [] => .ok closest
  | closest, c :: cs => (skip s c).bind fun p => skipAnyLoop s (min closest p) cs

/-- string_ops.hpp 242-253 `c_str_skip_any`. -/
def skipAny (s charList : Bytes) : Res Nat :=
  (len s).bind fun n => (len charList).bind fun m => skipAnyLoop s n (charList.take m)

/-- string_ops.hpp 255-263 `c_str_trim`. -/
def trim : Bytes → Bool → Res Nat
  | [], _ => .ub
  | b :: bs, nl =>
    if b ≠ 0 ∧ charIsSpace b ∧ (¬ nl ∨ (nl ∧ b ≠ 10)) then (trim bs nl).bind fun n => .ok (n + 1) else .ok 0

/-- string_ops.hpp 265-287 `c_str_to_lower` / `c_str_to_upper` with `f` the character function. -/
def mapStr (f : UInt8 → UInt8) : Bytes → Res Bytes
  | [] => .ub
  | b :: bs => if b = 0 then .ok (b :: bs) else (mapStr f bs).bind fun r => .ok (f b :: r)

def toLower : Bytes → Res Bytes := mapStr charToLower
def toUpper : Bytes → Res Bytes := mapStr charToUpper

end CStr

namespace Str

/-- strings.hpp 62-72 `str_are_equal`: the loop over `idx < lhs.Len`. A `Str` is the list of the `Len` bytes at `Ptr`. -/
def areEqualLoop (l r : Bytes) : Nat → Nat → Res Bool
  | 0, _ => .ok true
  | k+1, idx =>
    match l[idx]?, r[idx]? with
    | some a, some b => if a ≠ b then .ok false else areEqualLoop l r k (idx+1)
    | _, _ => .ub

/-- strings.hpp 62-72 `str_are_equal`. -/
def areEqual (l r : Bytes) : Res Bool :=
  if l.length ≠ r.length then .ok false else areEqualLoop l r l.length 0

/-- strings.hpp 86-92: the loop of `str_contains`, `k` positions left. -/
def containsLoop (lt : Bool) (s sub : Bytes) : Nat → Nat → Res Bool
  | 0, _ => .ok false
  | k+1, idx => (CStr.compareLen lt (s.drop idx) sub sub.length).bind fun r =>
      if r = 0 then .ok true else containsLoop lt s sub k (idx+1)

/-- strings.hpp 79-93 `str_contains` (also `strbuilder_contains_*`, strings.hpp 433-470). -/
def contains (lt : Bool) (s sub : Bytes) : Res Bool :=
  if sub.length > s.length then .ok false else containsLoop lt s sub (s.length - sub.length + 1) 0

/-- strings.hpp 95-102 `str_starts_with` (also `strbuilder_starts_with_str`, strings.hpp 502-509). -/
def startsWith (lt : Bool) (s sub : Bytes) : Res Bool :=
  if sub.length > s.length then .ok false
  else (CStr.compareLen lt s sub sub.length).bind fun r => .ok (r = 0)

/-- strings.hpp 511-518 `strbuilder_starts_with_string`: compares `length - 1` characters (with a length of 0 the count is
negative and the loop does not run). -/
def startsWithString (lt : Bool) (s sub : Bytes) : Res Bool :=
  if sub.length > s.length then .ok false
  else (CStr.compareLen lt s sub (sub.length - 1)).bind fun r => .ok (r = 0)

/-- strings.hpp 74-77 `str_back`: address of the last byte (`Ptr + Len - 1`, as an offset). -/
def back (s : Bytes) : Int := (s.length : Int) - 1

/-- strings.hpp 104-108 `to_str_from_c_str`. -/
def ofCStr (buf : Bytes) : Res Bytes := (CStr.len buf).bind fun n => .ok (buf.take n)

end Str
end Verif
