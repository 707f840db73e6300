import Verif.Model.Arena
/-!
# Fallback allocator

Models `fallback_allocator_proc` (components/interface.cpp 9-70) and the set-up of its first bucket (242-253). Each request
that may reach `heap()` carries the address the heap would return (0 is null). Addresses only; the contents written by the
zeroing and by the copy of a resize are not modelled, but a copy longer than the new block is `ub`.
-/
namespace Verif.Fallback

/-- A block handed out. -/
structure Blk where
  addr : Nat
  size : Nat
  deriving Repr, DecidableEq

/-- `Fallback_AllocatorBuckets` (last element last), and (ghost) the blocks served from buckets and from the heap. -/
structure St where
  buckets : List Arena
  served : List Blk
  direct : List Blk
  deriving Repr, DecidableEq

/-- interface.cpp 20-33 (and 47-60): open a bucket if `TotalUsed + size > TotalSize`. -/
def openBucket (bsize : Nat) (st : St) (size fromHeap : Nat) : Res St :=
  (Res.ofOption st.buckets.getLast?).bind fun last =>
  if last.totalUsed + size > last.totalSize then
    if fromHeap = 0 then .stop
    else .ok { st with buckets := st.buckets ++ [⟨fromHeap, bsize, 0⟩] }
  else .ok st

/-- interface.cpp 18-36, case `EAllocation_ALLOC`. -/
def alloc (bsize : Nat) (st : St) (size align fromHeap : Nat) : Res (Nat × St) :=
  (openBucket bsize st size fromHeap).bind fun st =>
  (Res.ofOption st.buckets.getLast?).bind fun last =>
  (last.alloc size align).bind fun r =>
  .ok (r.1, { st with buckets := st.buckets.dropLast ++ [r.2], served := ⟨r.1, size⟩ :: st.served })

/-- interface.cpp 37-46, cases `EAllocation_FREE` and `EAllocation_FREE_ALL`: nothing. -/
def free (st : St) : St := st

/-- interface.cpp 47-69, case `EAllocation_RESIZE`: the block comes from `last->Backing` (the heap), and `old_size` bytes are
copied into it. -/
def resize (bsize : Nat) (st : St) (old oldSize size bucketFromHeap fromHeap : Nat) : Res (Nat × St) :=
  (openBucket bsize st size bucketFromHeap).bind fun st =>
  if fromHeap = 0 then .ok (0, st)
  else if old ≠ 0 ∧ size < oldSize then .ub
  else .ok (fromHeap, { st with direct := ⟨fromHeap, size⟩ :: st.direct })

/-- interface.cpp 242-253. -/
def init (bsize b : Nat) : St := ⟨[⟨b, bsize, 0⟩], [], []⟩

end Verif.Fallback
