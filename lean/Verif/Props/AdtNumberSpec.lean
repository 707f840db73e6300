import Verif.Model.AdtNumber
/-!
# Numerals

What a text of digits stands for, written without the functions of the library.
-/
namespace Verif.Adt

/-- The value of a digit: `0`-`9`, `A`-`F`, `a`-`f`. -/
def digitVal (c : UInt8) : Nat := if c.toNat ≤ 57 then c.toNat - 48 else if c.toNat ≤ 70 then c.toNat - 55 else c.toNat - 87

/-- The value of the digits `t` in base `b`. -/
def numeral (b : Nat) (t : Bytes) : Nat := t.foldl (fun r c => r * b + digitVal c) 0

/-- `0`-`9`. -/
def IsDigit (c : UInt8) : Prop := 48 ≤ c.toNat ∧ c.toNat ≤ 57

/-- `0`-`9`, `A`-`F`, `a`-`f`. -/
def IsHex (c : UInt8) : Prop := IsDigit c ∨ (65 ≤ c.toNat ∧ c.toNat ≤ 70) ∨ (97 ≤ c.toNat ∧ c.toNat ≤ 102)

/-- A sign in front of a number. -/
inductive Sign where
  | none
  | plus
  | minus
  deriving DecidableEq, Repr

/-- How it is written. -/
def Sign.text : Sign → Bytes
  | .none => []
  | .plus => b!"+"
  | .minus => b!"-"

/-- What it makes of a value. -/
def Sign.apply : Sign → Nat → Int
  | .minus, v => -(v : Int)
  | _, v => v

/-- What ends a number: no digit, no letter that could be one of a hexadecimal number, no point. -/
def Ends (d : UInt8) : Prop := ¬ IsHex d ∧ d.toNat ≠ 46 ∧ d.toNat ≠ 120 ∧ d.toNat ≠ 88

/-- The leading zeros of the digits behind the point. -/
def leadZeros : Bytes → Nat
  | [] => 0
  | c :: cs => if c = 48 then leadZeros cs + 1 else 0

/-- An exponent, as it is written: `e` or `E`, a sign, digits. -/
inductive Expo where
  | none
  | some (upper : Bool) (sg : Sign) (digits : Bytes)

/-- Its text. -/
def Expo.text : Expo → Bytes
  | .none => []
  | .some u sg ks => (if u then 69 else 101) :: (sg.text ++ ks)

/-- Its value without the sign. -/
def Expo.value : Expo → Nat
  | .none => 0
  | .some _ _ ks => numeral 10 ks

/-- Its sign. -/
def Expo.neg : Expo → Bool
  | .some _ .minus _ => true
  | _ => false

/-- At least one digit, at most five, and a value that fits the field of the node. -/
def Expo.Ok : Expo → Prop
  | .none => True
  | .some _ _ ks => ks ≠ [] ∧ (∀ c ∈ ks, IsDigit c) ∧ ks.length ≤ 5 ∧ numeral 10 ks < 8

/-- `n` times. -/
def times (f : UInt64 → UInt64) : Nat → UInt64 → UInt64
  | 0, v => v
  | n + 1, v => f (times f n v)

end Verif.Adt
