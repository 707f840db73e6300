import Verif.Model.Mem
import Verif.Model.Res
/-!
# Pool allocator and default resize

Models `pool_init_align`, `pool_clear`, `pool_allocator_proc` (memory.cpp 389-522) with the intrusive free list kept in
the byte memory, and `default_resize_align` (memory.hpp 636-664).
Sizes are nonnegative; addresses do not wrap (hypothesis of the theorems).
-/
namespace Verif

namespace Mem
/-- The `k` low bytes of `v`, least significant first (how a `uptr` is stored). -/
def leBytes : Nat → Nat → List UInt8
  | 0, _ => []
  | k+1, v => UInt8.ofNat (v % 256) :: leBytes k (v / 256)

/-- Store of a 64-bit `uptr`. -/
def storeWord (m : Mem) (a v : Nat) : Option Mem := m.storeN a (leBytes 8 v)
/-- Load of a 64-bit `uptr`. -/
def loadWord (m : Mem) (a : Nat) : Option Nat := (m.loadN a 8).map leWord
end Mem

/-- memory.hpp 370-382 `struct Pool` without `Backing`. -/
structure Pool where
  start : Nat
  freeList : Nat
  blockSize : Nat
  blockAlign : Nat
  totalSize : Int
  numBlocks : Nat
  deriving Repr, DecidableEq

namespace Pool

/-- `actual_block_size`. -/
def stride (p : Pool) : Nat := p.blockSize + p.blockAlign

/-- The loop of memory.cpp 485-490 (and its copies 441-446, 509-514): `k` links, then the current address. -/
def link (m : Mem) (curr stride : Nat) : Nat → Option (Mem × Nat)
  | 0 => some (m, curr)
  | k+1 => do
    let m' ← m.storeWord curr (curr + stride)
    link m' (curr + stride) stride k

/-- memory.cpp 484-493: link all blocks and terminate the list with null. -/
def buildList (m : Mem) (start stride numBlocks : Nat) : Option Mem := do
  let (m', curr) ← link m start stride (numBlocks - 1)
  m'.storeWord curr 0

/-- memory.cpp 464-499 `pool_init_align`, after the backing allocator returned `data` (the backing allocation is a
parameter: `data`, `m`). -/
def init (m : Mem) (data numBlocks blockSize blockAlign : Nat) : Res (Pool × Mem) := do
  let m' ← Res.ofOption (buildList m data (blockSize + blockAlign) numBlocks)
  pure (⟨data, data, blockSize, blockAlign, 0, numBlocks⟩, m')

/-- memory.cpp 398-415, case `EAllocation_ALLOC` with the default flags (clear to zero). -/
def alloc (p : Pool) (m : Mem) (size align : Nat) : Res (Nat × Pool × Mem) := do
  Res.assert (size = p.blockSize)
  Res.assert (align = p.blockAlign)
  Res.assert (p.freeList ≠ 0)
  let next ← Res.ofOption (m.loadWord p.freeList)
  let m' ← Res.ofOption (m.memSet p.freeList 0 size)
  pure (p.freeList, { p with freeList := next, totalSize := p.totalSize + p.blockSize }, m')

/-- memory.cpp 417-428, case `EAllocation_FREE`. -/
def free (p : Pool) (m : Mem) (old : Nat) : Res (Pool × Mem) :=
  if old = 0 then .ok (p, m)
  else do
    let m' ← Res.ofOption (m.storeWord old p.freeList)
    pure ({ p with freeList := old, totalSize := p.totalSize - p.blockSize }, m')

/-- memory.cpp 430-453, case `EAllocation_FREE_ALL`. -/
def freeAll (p : Pool) (m : Mem) : Res (Pool × Mem) := do
  let m' ← Res.ofOption (buildList m p.start p.stride p.numBlocks)
  pure ({ p with freeList := p.start, totalSize := 0 }, m')

/-- memory.cpp 501-522 `pool_clear`: as above but `TotalSize` is left alone. -/
def clear (p : Pool) (m : Mem) : Res (Pool × Mem) := do
  let m' ← Res.ofOption (buildList m p.start p.stride p.numBlocks)
  pure ({ p with freeList := p.start }, m')

/-- memory.cpp 455-458, case `EAllocation_RESIZE`. -/
def resize (_p : Pool) (_m : Mem) : Res Unit := .stop

/-- A pool, its memory and (ghost) the addresses handed out and not freed. -/
structure St where
  pool : Pool
  mem : Mem
  live : List Nat

/-- A use of the pool. `write` is the user storing a byte. -/
inductive Op where
  | alloc
  | free (p : Nat)
  | clear
  | freeAll
  | write (a : Nat) (v : UInt8)
  deriving Repr, DecidableEq

/-- Execute one use. -/
def step (s : St) : Op → Res St
  | .alloc => do
    let (p, pool, m) ← s.pool.alloc s.mem s.pool.blockSize s.pool.blockAlign
    pure ⟨pool, m, p :: s.live⟩
  | .free p => do
    let (pool, m) ← s.pool.free s.mem p
    pure ⟨pool, m, s.live.erase p⟩
  | .clear => do
    let (pool, m) ← s.pool.clear s.mem
    pure ⟨pool, m, []⟩
  | .freeAll => do
    let (pool, m) ← s.pool.freeAll s.mem
    pure ⟨pool, m, []⟩
  | .write a v => do
    let m ← Res.ofOption (s.mem.store a v)
    pure ⟨s.pool, m, s.live⟩

end Pool

/-- memory.hpp 636-664 `default_resize_align`, over an allocator given by its `alloc`/`free` on memories (a null result
of `alloc` is `0`). -/
def defaultResizeAlign (alloc : Mem → Nat → Res (Nat × Mem)) (free : Mem → Nat → Res Mem)
    (m : Mem) (old oldSize newSize : Nat) : Res (Nat × Mem) :=
  if old = 0 then alloc m newSize
  else if newSize = 0 then do
    let m' ← free m old
    pure (0, m')
  else
    let newSize := if newSize < oldSize then oldSize else newSize
    if oldSize = newSize then .ok (old, m)
    else do
      let (p, m1) ← alloc m newSize
      if p = 0 then pure (0, m1)
      else do
        let m2 ← Res.ofOption (m1.memMove p old (min newSize oldSize))
        let m3 ← free m2 old
        pure (p, m3)

end Verif
