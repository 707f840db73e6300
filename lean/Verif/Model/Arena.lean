import Verif.Model.Mem
import Verif.Model.Res
/-!
# Arena allocator

Models `arena_init_from_memory`, `arena_alignment_of`, `arena_size_remaining` (memory.hpp 226-301) and
`arena_allocator_proc` (memory.cpp 339-386). Addresses and sizes are naturals (no 64-bit overflow); negative sizes are
not modelled.
-/
namespace Verif

/-- memory.hpp 190-199 `struct Arena` without `Backing`/`TempCount` (`TempCount` is never changed by the code). -/
structure Arena where
  start : Nat
  totalSize : Nat
  totalUsed : Nat
  deriving Repr, DecidableEq

namespace Arena

/-- memory.hpp 231-241 `arena_init_from_memory`. -/
def initFromMemory (start size : Nat) : Arena := ⟨start, size, 0⟩

/-- `align_forward` on natural addresses: the mask form of memory.hpp 448-456 equals this quotient form
(theorem `C04_align_forward_least`). -/
def alignPtr (p a : Nat) : Res Nat :=
  if isPowerOfTwo a then .ok ((p + (a - 1)) / a * a) else .stop

/-- memory.cpp 349-371, case `EAllocation_ALLOC`: `total_size` is the size rounded up, the bound is checked on
`TotalUsed + total_size`, the pointer is rounded up from `start + TotalUsed`, and `TotalUsed` grows by `total_size`
only. `size = 0 mod 0` division: `align_forward_s64(size, 0)` divides by zero, modelled as UB. -/
def alloc (ar : Arena) (size align : Nat) : Res (Nat × Arena) :=
  if align = 0 then .ub
  else
    let total := alignForwardS64 size align
    if ar.totalUsed + total > ar.totalSize then .stop
    else do
      let p ← alignPtr (ar.start + ar.totalUsed) align
      pure (p, { ar with totalUsed := ar.totalUsed + total })

/-- memory.cpp 373-376, case `EAllocation_FREE`: nothing. -/
def free (ar : Arena) (_p : Nat) : Arena := ar

/-- memory.cpp 378-380, case `EAllocation_FREE_ALL`. -/
def freeAll (ar : Arena) : Arena := { ar with totalUsed := 0 }

/-- memory.hpp 270-286 `arena_alignment_of`. -/
def alignmentOf (ar : Arena) (align : Nat) : Res Nat :=
  if isPowerOfTwo align then
    let p := ar.start + ar.totalUsed
    .ok (if p &&& (align - 1) ≠ 0 then align - (p &&& (align - 1)) else 0)
  else .stop

/-- memory.hpp 306-312 `arena_size_remaining` (signed result). -/
def sizeRemaining (ar : Arena) (align : Nat) : Res Int := do
  let off ← ar.alignmentOf align
  pure ((ar.totalSize : Int) - ((ar.totalUsed : Int) + off))

/-- A block handed out. -/
structure Block where
  addr : Nat
  size : Nat
  align : Nat
  deriving Repr, DecidableEq

/-- A request to an arena. -/
inductive Op where
  | alloc (size align : Nat)
  | free (p : Nat)
  | freeAll
  deriving Repr, DecidableEq

/-- Run one request; `live` collects the blocks handed out since the last `freeAll`, newest first. -/
def step (s : Arena × List Block) : Op → Res (Arena × List Block)
  | .alloc size align => do
    let (p, ar) ← s.1.alloc size align
    pure (ar, ⟨p, size, align⟩ :: s.2)
  | .free p => .ok (s.1.free p, s.2)
  | .freeAll => .ok (s.1.freeAll, [])

/-- Run a history of requests. -/
def run : Arena × List Block → List Op → Res (Arena × List Block)
  | s, [] => .ok s
  | s, op :: ops => do
    let s' ← step s op
    run s' ops

end Arena
end Verif

namespace Verif.Arena
/-- memory.cpp 368-369: with the default flags (memory.hpp 90-92, `ALLOCATOR_FLAG_CLEAR_TO_ZERO`) the block is zeroed
with `mem_set` after it has been carved out. -/
def allocZeroed (ar : Arena) (m : Mem) (size align : Nat) : Res (Nat × Arena × Mem) := do
  let (p, ar') ← ar.alloc size align
  let m' ← Res.ofOption (m.memSet p 0 size)
  pure (p, ar', m')
end Verif.Arena
