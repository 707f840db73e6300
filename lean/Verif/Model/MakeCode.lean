import Verif.Model.Pool
/-!
# Node allocation

Models `make_code` (components/interface.cpp 455-472) over the pools of `Model/Pool.lean` sharing one byte memory. The
backing allocator `Allocator_Pool` is an oracle: the list of the addresses it will return, an empty list being null. The
append to the array `CodePools` succeeds.
-/
namespace Verif.Code

/-- `CodePool_NumBlocks` and `sizeof(AST)`; the block alignment is the default 16 (memory.hpp 86-88). -/
structure PCfg where
  numBlocks : Nat
  size : Nat

/-- The pools of the context, last element last; the addresses handed out (ghost, newest first). -/
structure PSt where
  mem : Mem
  heap : List Nat
  pools : List Pool
  nodes : List Nat

/-- interface.cpp 460-466: when the last pool is used up, append a new one. -/
def ensurePool (cfg : PCfg) (st : PSt) : Res PSt :=
  (Res.ofOption st.pools.getLast?).bind fun last =>
  if last.freeList = 0 then
    let (b, heap) := match st.heap with | [] => (0, []) | b :: h => (b, h)
    (Pool.init st.mem b cfg.numBlocks cfg.size 16).bind fun r =>
    .ok { st with mem := r.2, heap := heap, pools := st.pools ++ [r.1] }
  else .ok st

/-- interface.cpp 455-472 `make_code`: address of the node. -/
def makeCode (cfg : PCfg) (st : PSt) : Res (Nat × PSt) :=
  (ensurePool cfg st).bind fun st =>
  (Res.ofOption st.pools.getLast?).bind fun last =>
  (last.alloc st.mem cfg.size 16).bind fun r =>
  (Res.ofOption (r.2.2.memSet r.1 0 cfg.size)).bind fun m =>
  .ok (r.1, ⟨m, st.heap, st.pools.dropLast ++ [r.2.1], r.1 :: st.nodes⟩)

/-- interface.cpp 300-304: the pool set up by `init`. -/
def pinit (cfg : PCfg) (mem : Mem) (b : Nat) (heap : List Nat) : Res PSt :=
  (Pool.init mem b cfg.numBlocks cfg.size 16).bind fun r => .ok ⟨r.2, heap, [r.1], []⟩

/-- Use of the nodes: make one, or write a byte. -/
inductive POp where
  | make
  | write (a : Nat) (v : UInt8)

def pstep (cfg : PCfg) (st : PSt) : POp → Res PSt
  | .make => (makeCode cfg st).bind fun r => .ok r.2
  | .write a v => (Res.ofOption (st.mem.store a v)).bind fun m => .ok { st with mem := m }

end Verif.Code
