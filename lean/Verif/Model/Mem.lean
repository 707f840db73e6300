/-!
# Raw memory primitives

Models `mem_copy`, `mem_move`, `mem_set`, `mem_find`, `is_power_of_two`, `align_forward`, `align_forward_s64`
(base/dependencies/memory.hpp, base/dependencies/memory.cpp).

Memory is a partial map from addresses to bytes.  An access to an unmapped address is a fault (`none`): that is the
model of undefined behaviour.  Addresses are natural numbers; wrap-around of the address space is not modelled.
Words are eight (or four) bytes loaded/stored least significant first; only equality of bytes is ever observed, so the
byte order does not matter for any theorem.
-/
namespace Verif

/-- A memory: which addresses are mapped, and what they hold. -/
abbrev Mem := Nat → Option UInt8

namespace Mem

/-- Load one byte; a fault if the address is unmapped. -/
def load (m : Mem) (a : Nat) : Option UInt8 := m a

/-- Store one byte; a fault if the address is unmapped. -/
def store (m : Mem) (a : Nat) (v : UInt8) : Option Mem :=
  match m a with
  | none => none
  | some _ => some (fun i => if i = a then some v else m i)

/-- Load `k` consecutive bytes (one machine access of width `k`). -/
def loadN (m : Mem) (a : Nat) : Nat → Option (List UInt8)
  | 0 => some []
  | k+1 => do
    let b ← m.load a
    let bs ← loadN m (a+1) k
    pure (b :: bs)

/-- Store consecutive bytes (one machine access). -/
def storeN (m : Mem) (a : Nat) : List UInt8 → Option Mem
  | [] => some m
  | b :: bs => do
    let m' ← m.store a b
    storeN m' (a+1) bs

/-- memory.cpp 8-16 `mem_copy` = libc `memcpy`.  `memcpy` is modelled as the ascending byte copy; the code only calls
it on disjoint ranges where every order agrees. `byte_count` is a nonnegative `ssize`. The `dest == nullptr` early return
is modelled in `memMove`/`memSet` by address 0. -/
def memCopy (m : Mem) (dest src : Nat) : Nat → Option Mem
  | 0 => some m
  | n+1 => do
    let b ← m.load src
    let m' ← m.store dest b
    memCopy m' (dest+1) (src+1) n

/-- memory.hpp 486-491 (first inner loop): copy single bytes upwards until `dest` is 8-aligned.
Returns the memory and the new `(dest, src, byte_count)`; `inr` is the early `return destination`. -/
def fwdAlign (m : Mem) (dest src n : Nat) : Nat → Option (Mem × Nat × Nat × Nat ⊕ Mem)
  | 0 => none
  | fuel+1 =>
    if dest % 8 = 0 then some (.inl (m, dest, src, n))
    else match n with
      | 0 => some (.inr m)
      | n'+1 => do
        let b ← m.load src
        let m' ← m.store dest b
        fwdAlign m' (dest+1) (src+1) n' fuel

/-- memory.hpp 492-498: whole words upwards. -/
def fwdWords (m : Mem) (dest src n : Nat) : Option (Mem × Nat × Nat × Nat) :=
  if h : 8 ≤ n then do
    let w ← m.loadN src 8
    let m' ← m.storeN dest w
    fwdWords m' (dest+8) (src+8) (n-8)
  else some (m, dest, src, n)
termination_by n

/-- memory.hpp 509-515: single bytes downwards until `dest + n` is 8-aligned. -/
def bwdAlign (m : Mem) (dest src n : Nat) : Nat → Option (Mem × Nat ⊕ Mem)
  | 0 => none
  | fuel+1 =>
    if (dest + n) % 8 = 0 then some (.inl (m, n))
    else match n with
      | 0 => some (.inr m)
      | n'+1 => do
        let b ← m.load (src + n')
        let m' ← m.store (dest + n') b
        bwdAlign m' dest src n' fuel

/-- memory.hpp 516-520: whole words downwards. -/
def bwdWords (m : Mem) (dest src n : Nat) : Option (Mem × Nat) :=
  if h : 8 ≤ n then do
    let w ← m.loadN (src + (n-8)) 8
    let m' ← m.storeN (dest + (n-8)) w
    bwdWords m' dest src (n-8)
  else some (m, n)
termination_by n

/-- memory.hpp 522-523: single bytes downwards. -/
def bwdBytes (m : Mem) (dest src : Nat) : Nat → Option Mem
  | 0 => some m
  | n+1 => do
    let b ← m.load (src + n)
    let m' ← m.store (dest + n) b
    bwdBytes m' dest src n

/-- memory.hpp 467-528 `mem_move`. The returned pointer is always `destination` (or null) and is dropped. -/
def memMove (m : Mem) (dest src n : Nat) : Option Mem :=
  if dest = 0 then some m
  else if dest = src then some m
  else if src + n ≤ dest ∨ dest + n ≤ src then memCopy m dest src n
  else if dest < src then
    if src % 8 = dest % 8 then do
      match ← fwdAlign m dest src n 8 with
      | .inr m' => some m'
      | .inl (m1, d1, s1, n1) =>
        let (m2, d2, s2, n2) ← fwdWords m1 d1 s1 n1
        memCopy m2 d2 s2 n2
    else memCopy m dest src n
  else
    if src % 8 = dest % 8 then do
      match ← bwdAlign m dest src n 8 with
      | .inr m' => some m'
      | .inl (m1, n1) =>
        let (m2, n2) ← bwdWords m1 dest src n1
        bwdBytes m2 dest src n2
    else bwdBytes m dest src n

/-- A 32-bit store of `fill_word` (memory.hpp 539: `((u32)-1)/255 * fill_byte`, i.e. four copies of the byte). -/
def store4 (m : Mem) (a : Nat) (c : UInt8) : Option Mem := m.storeN a [c,c,c,c]
/-- A 64-bit store of `fill_doubleword` (memory.hpp 588: eight copies of the byte). -/
def store8 (m : Mem) (a : Nat) (c : UInt8) : Option Mem := m.storeN a [c,c,c,c,c,c,c,c]

/-- memory.hpp 589-598: the 32-byte loop. -/
def setLoop (m : Mem) (dest n : Nat) (c : UInt8) : Option Mem :=
  if h : 31 < n then do
    let m ← m.store8 dest c
    let m ← m.store8 (dest+8) c
    let m ← m.store8 (dest+16) c
    let m ← m.store8 (dest+24) c
    setLoop m (dest+32) (n-32) c
  else some m
termination_by n

/-- memory.hpp 530-603 `mem_set`. `-to_sptr(dest) & 3` is `(4 - dest % 4) % 4`; `byte_count &= -4` is `n / 4 * 4`;
`24 + to_uptr(dest) & 4` parses as `(24 + dest) & 4`, i.e. `(24 + dest) / 4 % 2 * 4`. -/
def memSet (m : Mem) (dest : Nat) (c : UInt8) (n : Nat) : Option Mem :=
  if dest = 0 then some m
  else if n = 0 then some m
  else do
    let m ← m.store (dest + n - 1) c
    let m ← m.store dest c
    if n < 3 then return m
    let m ← m.store (dest + n - 2) c
    let m ← m.store (dest + 1) c
    let m ← m.store (dest + n - 3) c
    let m ← m.store (dest + 2) c
    if n < 7 then return m
    let m ← m.store (dest + n - 4) c
    let m ← m.store (dest + 3) c
    if n < 9 then return m
    let off := (4 - dest % 4) % 4
    let d := dest + off
    let k := (n - off) / 4 * 4
    let m ← m.store4 d c
    let m ← m.store4 (d + k - 4) c
    if k < 9 then return m
    let m ← m.store4 (d + 4) c
    let m ← m.store4 (d + 8) c
    let m ← m.store4 (d + k - 12) c
    let m ← m.store4 (d + k - 8) c
    if k < 25 then return m
    let m ← m.store4 (d + 12) c
    let m ← m.store4 (d + 16) c
    let m ← m.store4 (d + 20) c
    let m ← m.store4 (d + 24) c
    let m ← m.store4 (d + k - 28) c
    let m ← m.store4 (d + k - 24) c
    let m ← m.store4 (d + k - 20) c
    let m ← m.store4 (d + k - 16) c
    let off2 := (24 + d) / 4 % 2 * 4
    setLoop m (d + off2) (k - off2) c

/-- Little-endian value of a list of bytes: what a machine word load yields. -/
def leWord : List UInt8 → Nat
  | [] => 0
  | b :: bs => b.toNat + 256 * leWord bs

/-- memory.hpp 13 `GEN__ONES` = `(usize)-1 / GEN_U8_MAX`. -/
def ones : BitVec 64 := BitVec.ofNat 64 (0xFFFFFFFFFFFFFFFF / 0xFF)
/-- `GEN__HIGHS` = `GEN__ONES * (GEN_U8_MAX/2 + 1)`. -/
def highs : BitVec 64 := ones * BitVec.ofNat 64 (0xFF / 2 + 1)
/-- `GEN__HAS_ZERO(x)` = `((x) - GEN__ONES) & ~(x) & GEN__HIGHS`. -/
def hasZero (x : BitVec 64) : Bool := ((x - ones) &&& ~~~x &&& highs) != 0#64

/-- memory.cpp 21-25: bytes until `s` is 8-aligned (or `n` is 0, or the byte is found). -/
def findAlign (m : Mem) (c : UInt8) (s n : Nat) : Nat → Option (Nat × Nat)
  | 0 => none
  | fuel+1 =>
    if s % 8 = 0 then some (s, n)
    else match n with
      | 0 => some (s, 0)
      | n'+1 => do
        let b ← m.load s
        if b = c then some (s, n'+1)
        else findAlign m c (s+1) n' fuel

/-- memory.cpp 31-35: word loop; `k = GEN__ONES * c`. -/
def findWords (m : Mem) (c : UInt8) (s n : Nat) : Option (Nat × Nat) :=
  if h : 8 ≤ n then do
    let w ← m.loadN s 8
    if hasZero (BitVec.ofNat 64 (leWord w) ^^^ (ones * BitVec.ofNat 64 c.toNat)) then some (s, n)
    else findWords m c (s+8) (n-8)
  else some (s, n)
termination_by n

/-- memory.cpp 37-41: byte loop. -/
def findBytes (m : Mem) (c : UInt8) (s : Nat) : Nat → Option (Nat × Nat)
  | 0 => some (s, 0)
  | n+1 => do
    let b ← m.load s
    if b = c then some (s, n+1) else findBytes m c (s+1) n

/-- memory.cpp 18-45 `mem_find`. Outer `Option`: fault. Inner `Option`: null / found address. -/
def memFind (m : Mem) (data : Nat) (c : UInt8) (n : Nat) : Option (Option Nat) := do
  let (s, n) ← findAlign m c data n 8
  if n = 0 then return none
  let b ← m.load s
  if b = c then return some s
  let (s, n) ← findWords m c s n
  let (s, n) ← findBytes m c s n
  if n = 0 then return none else return some s

end Mem

/-- memory.hpp 441-446 `is_power_of_two` (on a nonnegative `ssize`; a negative argument returns false in the code). -/
def isPowerOfTwo (x : Nat) : Bool := if x = 0 then false else x &&& (x - 1) = 0

/-- memory.hpp 448-456 `align_forward`: `(p + (a-1)) & ~(a-1)` on 64-bit `uptr`; assertion failure is `none`. -/
def alignForward (p : BitVec 64) (a : Nat) : Option (BitVec 64) :=
  if isPowerOfTwo a then
    some ((p + (BitVec.ofNat 64 a - 1#64)) &&& ~~~(BitVec.ofNat 64 a - 1#64))
  else none

/-- memory.hpp 458 `align_forward_s64` on nonnegative values and positive alignment. -/
def alignForwardS64 (v a : Nat) : Nat := v + (a - v % a) % a

end Verif
