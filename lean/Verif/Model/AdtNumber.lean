import Verif.Model.CsvWrite
/-!
# Numbers of a data tree

Models base/dependencies/parsing.cpp 443-733: `adt_parse_number_strict`, `adt_parse_number`, `adt_print_number`, in the usual build (without
`GEN_PARSER_DISABLE_ANALYSIS`).

Simplifications: arithmetic on `f64` is not modelled. What `c_str_to_f64` makes of a text, a multiplication by 10 or by 0.1, and the text of `%f` are the
parameters `F64`. The union of `real` and `integer` is one field each; the type of the node says which one is meant. `lt` is the order of addresses, as
in `c_str_compare_len`.
-/
namespace Verif.Adt
open Verif.Fmt

/-- parsing.hpp 8-17 `ADT_Type`. -/
inductive Ty where
  | uninitialised
  | array
  | object
  | string
  | multistring
  | integer
  | real
  deriving DecidableEq, Repr

/-- parsing.hpp 19-34 `ADT_Props`. -/
inductive Props where
  | none
  | nan
  | nanNeg
  | infinity
  | infinityNeg
  | false
  | true
  | null
  | isExp
  | isHex
  | isParsedReal
  deriving DecidableEq, Repr

/-- parsing.hpp 66-109: of `ADT_Node` what concerns numbers. -/
structure Number where
  type : Ty := .uninitialised
  props : Props := .none
  real : UInt64 := 0
  integer : Int := 0
  base : Int := 0
  base2 : Int := 0
  base2Offset : Nat := 0
  exp : Int := 0
  negZero : Bool := false
  leadDigit : Bool := false
  deriving DecidableEq, Repr

/-- What is not modelled: `c_str_to_f64` (string_ops.cpp), `real *= eb` (with `true` for 0.1) and the text of `%f` (printing.cpp). -/
structure F64 where
  ofText : Bytes → UInt64
  scale : Bool → UInt64 → UInt64
  text : UInt64 → Bytes

/-- The value of `x` as a signed number of `n` bits. -/
def wrap (n : Nat) (x : Int) : Int := (x + 2 ^ (n - 1)) % 2 ^ n - 2 ^ (n - 1)

/-- `!! char_first_occurence( set, c )`. -/
def among (set : Bytes) (c : UInt8) : Res Bool := (CStr.charFirstOccurence (set ++ [0]) c).bind fun r => .ok r.isSome

/-- parsing.cpp 500-503, 531-535: `do { buf[ib++] = *e; } while ( char_is_digit( *++e ) )` at the offsets `ib` and `e`. -/
def fraction (s : Bytes) : Nat → Bytes → Nat → Nat → Res (Bytes × Nat × Nat)
  | 0, _, _, _ => .hang
  | fuel + 1, buf, ib, e => do
    let c ← Csv.at_ s e
    let buf ← Num.put buf ib c
    let d ← Csv.at_ s (e + 1)
    if charIsDigit d then fraction s fuel buf (ib + 1) (e + 1) else pure (buf, ib + 1, e + 1)

/-- parsing.cpp 518-521: the digits in front of the point. -/
def whole (s : Bytes) : Nat → Bytes → Nat → Nat → Res (Bytes × Nat × Nat)
  | 0, _, _, _ => .hang
  | fuel + 1, buf, ib, e => do
    let c ← Csv.at_ s e
    if charIsHexDigit c || charToLower c == 120 then
      let buf ← Num.put buf ib c
      whole s fuel buf (ib + 1) (e + 1)
    else pure (buf, ib, e)

/-- parsing.cpp 564-567: the digits of the exponent. -/
def expDigits (s : Bytes) : Nat → Bytes → Nat → Nat → Res (Bytes × Nat)
  | 0, _, _, _ => .hang
  | fuel + 1, buf, i, e => do
    let c ← Csv.at_ s e
    if charIsDigit c then
      let buf ← Num.put buf i c
      expDigits s fuel buf (i + 1) (e + 1)
    else pure (buf, e)

/-- What has been read in front of the exponent (parsing.cpp 485-540). -/
structure Mantissa where
  buf : Bytes
  pos : Nat
  type : Ty
  props : Props
  leadDigit : Bool

/-- parsing.cpp 494-539; `none` is the return of line 515. -/
def mantissa (lt : Bool) (s : Bytes) (buf : Bytes) (ib e : Nat) : Res (Option Mantissa) := do
  let c ← Csv.at_ s e
  if c = 46 then
    let buf ← Num.put buf ib 48
    let (buf, _, e) ← fraction s s.length buf (ib + 1) e
    pure (some ⟨buf, e, .real, .isParsedReal, false⟩)
  else
    let x ← CStr.compareLen lt (s.drop e) (b!"0x" ++ [0]) 2
    let hex ← if x = 0 then Res.ok true else (CStr.compareLen lt (s.drop e) (b!"0X" ++ [0]) 2).bind fun y => .ok (y == 0)
    if charToLower c == 120 && !hex then return none
    let props := if hex then Props.isHex else Props.none
    let (buf, ib, e) ← whole s (s.length + 1) buf ib e
    let d ← Csv.at_ s e
    if d = 46 then
      let (buf, ib', e') ← fraction s s.length buf ib e
      let buf ← if ib' - ib < 2 then Num.put buf ib' 48 else Res.ok buf
      pure (some ⟨buf, e', .real, props, true⟩)
    else pure (some ⟨buf, e, .integer, props, false⟩)

/-- parsing.cpp 553-570: the exponent (an `s8`, from a `u8`), whether it is negative, and where it ends. -/
def exponent (lt : Bool) (s : Bytes) (e : Nat) : Res (Int × Bool × Nat) := do
  let c ← Csv.at_ s e
  let isE ← among b!"eE" c
  if c = 0 || !isE then return (0, false, e)
  let d ← Csv.at_ s (e + 1)
  if d = 43 ∨ d = 45 ∨ charIsDigit d then
    let (expbuf, e) ← expDigits s s.length (List.replicate 6 0) 0 (if charIsDigit d then e + 1 else e + 2)
    let (v, _) ← Num.cStrToI64 lt expbuf 10
    pure (wrap 8 (v % 256), d == 45, e)
  else
    let (v, _) ← Num.cStrToI64 lt (List.replicate 6 0) 10
    pure (wrap 8 (v % 256), false, e + 1)

/-- parsing.cpp 582-585: `while ( orig_exp-- > 0 ) integer *= ( s64 )eb;` -/
def scaleInt (neg : Bool) : Nat → Int → Res Int
  | 0, v => .ok v
  | k + 1, v => (Num.s64 (v * if neg then 0 else 10)).bind fun v => scaleInt neg k v

/-- parsing.cpp 613-616. -/
def scaleReal (F : F64) (neg : Bool) : Nat → UInt64 → UInt64
  | 0, v => v
  | k + 1, v => scaleReal F neg k (F.scale neg v)

/-- parsing.cpp 597-598: the zeros behind the point, from the offset `i` of `buf`. -/
def zeros (buf : Bytes) : Nat → Nat → Res Nat
  | 0, _ => .hang
  | fuel + 1, i => do
    let c ← Csv.at_ buf i
    if c = 48 then (zeros buf fuel (i + 1)).bind fun n => .ok (n + 1) else pure 0

/-- parsing.cpp 573-635: the node is filled in. -/
def fill (F : F64) (lt : Bool) (m : Mantissa) (exp : Int) (neg : Bool) (n : Number) : Res Number := do
  let first ← Csv.at_ m.buf 0
  if m.type = .integer then
    let (v, _) ← Num.cStrToI64 lt m.buf 0
    let w ← scaleInt neg exp.toNat v
    pure { n with type := m.type, props := m.props, integer := w, base := 0, base2 := 0, base2Offset := 0, exp := wrap 4 exp,
                  negZero := v == 0 && first == 45, leadDigit := m.leadDigit }
  else
    let dot ← CStr.skip m.buf 46
    let buf ← Num.put m.buf dot 0
    let off ← zeros buf buf.length (dot + 1)
    let (base, _) ← Num.cStrToI64 lt buf 0
    let (base2, _) ← Num.cStrToI64 lt (buf.drop (dot + 1)) 0
    let base := wrap 32 base
    pure { n with type := m.type, props := if exp ≠ 0 then .isExp else m.props, real := scaleReal F neg exp.toNat (F.ofText m.buf),
                  base := base, base2 := wrap 32 base2, base2Offset := off % 256 % 16, exp := wrap 4 (wrap 8 (if neg then -exp else exp)),
                  negZero := base == 0 && first == 45, leadDigit := m.leadDigit }

/-- parsing.cpp 466-636 `adt_parse_number`: the offset of the pointer returned, and the node. The text includes its terminator. -/
def parseNumber (F : F64) (lt : Bool) (s : Bytes) (n : Number) : Res (Nat × Number) := do
  let c ← Csv.at_ s 0
  if ← among b!"eE" c then return (1, n)
  if ← among b!".+-" c then
    let d ← Csv.at_ s 1
    if !charIsHexDigit d && d != 46 then return (1, n)
  let buf := List.replicate 48 0
  let (buf, ib, e) ← if c = 43 then Res.ok (buf, 0, 1) else if c = 45 then (Num.put buf 0 c).bind fun buf => .ok (buf, 1, 1) else Res.ok (buf, 0, 0)
  let some m ← mantissa lt s buf ib e | return (1, n)
  let d ← Csv.at_ s m.pos
  if d = 46 then return (1, n)
  let (exp, neg, e) ← exponent lt s m.pos
  let n ← fill F lt m exp neg n
  pure (e, n)

/-- parsing.cpp 452-455: the loop of `adt_parse_number_strict`. -/
def strictLoop (s : Bytes) : Nat → Nat → Res Nat
  | 0, _ => .hang
  | fuel + 1, p => do
    let c ← Csv.at_ s p
    if c = 0 then return p
    let a ← among b!"eE.+-" c
    if a || charIsHexDigit c then strictLoop s fuel (p + 1) else pure p

/-- parsing.cpp 443-464 `adt_parse_number_strict`. -/
def parseNumberStrict (F : F64) (lt : Bool) (s : Bytes) (n : Number) : Res (Nat × Number) := do
  let e ← CStr.len s
  let p ← strictLoop s (s.length + 1) 0
  if p ≥ e then parseNumber F lt s n else pure (0, n)

/-- parsing.cpp 645-650: a minus in front of a negative zero. -/
def sign (n : Number) : List Bytes := if n.negZero then [b!"-"] else []

/-- parsing.cpp 652-730: the piece that is written for the number itself. -/
def digits (F : F64) (lt : Bool) (n : Number) : Res Bytes :=
  if n.type = .integer then
    if n.props = .isHex then CsvWrite.fileFmt lt b!"0x%llx" [.int n.integer] else CsvWrite.fileFmt lt b!"%lld" [.int n.integer]
  else match n.props with
    | .nan => .ok b!"NaN"
    | .nanNeg => .ok b!"-NaN"
    | .infinity => .ok b!"Infinity"
    | .infinityNeg => .ok b!"-Infinity"
    | .true => .ok b!"true"
    | .false => .ok b!"false"
    | .null => .ok b!"null"
    | .isExp => CsvWrite.fileFmt lt b!"%lld.%0*d%llde%lld" [.int n.base, .int n.base2Offset, .int 0, .int n.base2, .int n.exp]
    | .isParsedReal =>
      if !n.leadDigit then CsvWrite.fileFmt lt b!".%0*d%lld" [.int n.base2Offset, .int 0, .int n.base2]
      else CsvWrite.fileFmt lt b!"%lld.%0*d%lld" [.int n.base2Offset, .int 0, .int n.base, .int n.base2]
    | _ => .ok (F.text n.real)

/-- parsing.cpp 638-733 `adt_print_number`: the pieces written, `none` for a node that is no number (`EADT_ERROR_INVALID_TYPE`). A file that refuses a piece
ends the call at once; the files here refuse nothing. -/
def printNumber (F : F64) (lt : Bool) (n : Number) : Res (Option (List Bytes)) :=
  if n.type = .integer ∨ n.type = .real then (digits F lt n).bind fun d => .ok (some (sign n ++ [d])) else .ok none

end Verif.Adt
