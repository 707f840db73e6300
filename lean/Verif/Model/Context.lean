import Verif.Model.MakeCode
/-!
# Contexts

Models `init`, `deinit`, `reset`, `set_context` and `define_constants` (components/interface.cpp 75-212, 217-330, 331-378, 386-410) over the
node allocation of `Model/MakeCode.lean`.

Simplifications: the allocators of different contexts hand out different memory, so every context has its own memory and a node is a context
and an address; freed memory is gone with its context. `init` only counts the constants that `define_constants` makes (their contents are in
`Model/Constants.lean`). String arenas and the string cache (cleared by `reset`, freed by `deinit`) are not kept here; of the macros only
whether `enum_underlying` is registered. The allocations of `init` succeed.
-/
namespace Verif.Context
open Verif.Code

/-- A context: its pools, whether the fallback allocator is used, and whether the macro `enum_underlying` is registered in it. -/
structure Ctx where
  cfg : PCfg
  st : PSt
  fallback : Bool
  enumMacro : Bool

/-- The globals of the library: the contexts (`none`: freed), `_ctx`, `context_counter`, the constants. -/
structure Lib where
  ctxs : List (Option Ctx)
  cur : Option Nat
  counter : Nat
  consts : List (Nat × Nat)

/-- Before the first `init`. -/
def start : Lib := ⟨[], none, 0, []⟩

/-- A context that has not been freed. -/
def Lib.get (l : Lib) (i : Nat) : Res Ctx := Res.ofOption (l.ctxs[i]?).join

def Lib.set (l : Lib) (i : Nat) (c : Option Ctx) : Lib := { l with ctxs := l.ctxs.set i c }

/-- `make_code()` so often; the addresses in order. -/
def makeNodes (cfg : PCfg) : Nat → PSt → Res (List Nat × PSt)
  | 0, st => .ok ([], st)
  | n + 1, st => (makeCode cfg st).bind fun r => (makeNodes cfg n r.2).bind fun rs => .ok (r.1 :: rs.1, rs.2)

/-- interface.cpp 75-212 `define_constants`; `k` is the number of constants. -/
def defineConstants (k : Nat) (l : Lib) : Res Lib :=
  if l.counter > 0 then .ok l else
  (Res.ofOption l.cur).bind fun i =>
  (l.get i).bind fun c =>
  (makeNodes c.cfg k c.st).bind fun r =>
  .ok { l.set i (some { c with st := r.2, enumMacro := true }) with consts := r.1.map fun p => (i, p) }

/-- interface.cpp 217-330 `init`. -/
def init (k : Nat) (cfg : PCfg) (mem : Mem) (b : Nat) (heap : List Nat) (fallback : Bool) (l : Lib) : Res Lib :=
  (pinit cfg mem b heap).bind fun st =>
  (defineConstants k { l with ctxs := l.ctxs ++ [some ⟨cfg, st, fallback, false⟩], cur := some l.ctxs.length }).bind fun l =>
  .ok { l with counter := l.counter + 1 }

/-- interface.cpp 331-378 `deinit`: `array_num( ctx->Fallback_AllocatorBuckets )` reads the header in front of a null pointer when the user
gave all allocators. -/
def deinit (i : Nat) (l : Lib) : Res Lib :=
  (Res.assert (l.counter > 0)).bind fun _ =>
  (l.get i).bind fun c =>
  if c.fallback then
    .ok { l.set i none with cur := if l.cur = some i then none else l.cur, counter := l.counter - 1 }
  else .ub

/-- interface.cpp 386-396: the pools are cleared. -/
def clearPools (m : Mem) : List Pool → Res (List Pool × Mem)
  | [] => .ok ([], m)
  | p :: ps => (p.clear m).bind fun r => (clearPools r.2 ps).bind fun rs => .ok (r.1 :: rs.1, rs.2)

/-- interface.cpp 384-410 `reset`. The nodes handed out are forgotten. -/
def reset (k : Nat) (i : Nat) (l : Lib) : Res Lib :=
  (l.get i).bind fun c =>
  (clearPools c.st.mem c.st.pools).bind fun r =>
  defineConstants k (l.set i (some { c with st := { c.st with pools := r.1, mem := r.2, nodes := [] }, enumMacro := false }))

/-- interface.cpp 412-415 `set_context`. -/
def setContext (i : Nat) (l : Lib) : Lib := { l with cur := some i }

/-- interface.cpp 455-472 `make_code`. -/
def make (l : Lib) : Res ((Nat × Nat) × Lib) :=
  (Res.ofOption l.cur).bind fun i =>
  (l.get i).bind fun c =>
  (makeCode c.cfg c.st).bind fun r => .ok ((i, r.1), l.set i (some { c with st := r.2 }))

/-- The user writes a byte. -/
def write (i a : Nat) (v : UInt8) (l : Lib) : Res Lib :=
  (l.get i).bind fun c => (Res.ofOption (c.st.mem.store a v)).bind fun m => .ok (l.set i (some { c with st := { c.st with mem := m } }))

end Verif.Context
