import Verif.Model.Arena
import Verif.Model.Pool
import Verif.Model.HashTable
import Verif.Model.Crc
/-!
# Interned strings and the macro registry

Models `strbuilder_make_length` on the byte memory (strings.cpp 8-36), `get_cached_str_allocator`, `cache_str`,
`lookup_macro`, `register_macro`, `register_macros`, `register_macros_arr` (components/interface.cpp 420-452, 474-517).

Interned characters live in the byte memory, in arenas; the two hash tables are the tables of `Model/HashTable.lean`
(their own storage is not part of the memory). The backing allocator `Allocator_StrCache` is an oracle: the list `heap`
of the addresses it will return, an empty list being out of memory (null). A string argument is its bytes.
-/
namespace Verif.Ctx

/-- The fields of `Context` that configure interning (`SizePer_StringArena`, `Max_StrCacheLength`), and the load
threshold of the hash tables. -/
structure Cfg where
  arenaSize : Nat
  maxLen : Nat
  crit : Nat → Nat

/-- A `Str`: address and length. -/
structure Ref where
  ptr : Nat
  len : Nat
  deriving Repr, DecidableEq

/-- parser_types.hpp 197-202 `Macro`. -/
structure Macro where
  name : Ref
  type : Nat
  flags : Nat
  deriving Repr, DecidableEq

/-- The part of `Context` (gen types, interface.hpp) used here. `arenas` is `StringArenas`, last element last. -/
structure St where
  mem : Mem
  heap : List Nat
  arenas : List Arena
  cache : HTable Ref
  macros : HTable Macro

/-- strings.cpp 20-24: the header `{Allocator, Capacity, Length}`; the two words of the allocator are opaque. -/
def header (proc data len : Nat) : Bytes := Mem.leBytes 8 proc ++ Mem.leBytes 8 data ++ Mem.leBytes 8 len ++ Mem.leBytes 8 len

/-- strings.cpp 16-35: fill a block at `p` (`sizeof(StrBuilderHeader)` is 32); returns the memory. -/
def fillStr (m : Mem) (p proc data : Nat) (s : Bytes) : Option Mem :=
  (m.storeN p (header proc data s.length)).bind fun m =>
  (if s.length ≠ 0 then m.storeN (p + 32) s else m.memSet (p + 32) 0 1).bind fun m =>
  m.store (p + 32 + s.length) 0

/-- memory.hpp 253-262 `arena_init_from_allocator`; a null result of the backing allocator is start address 0. -/
def newArena (cfg : Cfg) (st : St) : Arena × List Nat :=
  match st.heap with
  | [] => (⟨0, cfg.arenaSize, 0⟩, [])
  | b :: heap => (⟨b, cfg.arenaSize, 0⟩, heap)

/-- interface.cpp 420-433 `get_cached_str_allocator`: afterwards the arena to use is the last one (the append to
`StringArenas` succeeds). -/
def getCachedStrAllocator (cfg : Cfg) (st : St) (len : Nat) : Res St :=
  (Res.ofOption st.arenas.getLast?).bind fun last =>
  if last.totalUsed + (len + 32 + 8) > last.totalSize then
    let (a, heap) := newArena cfg st
    .ok { st with heap := heap, arenas := st.arenas ++ [a] }
  else .ok st

/-- strings.hpp 304-307 `strbuilder_make_str` from the last arena followed by `strbuilder_to_str`. The words of the
allocator stored in the header are 0 here. A null block is dereferenced by `strbuilder_to_str`. -/
def makeStr (st : St) (s : Bytes) : Res (Ref × St) :=
  (Res.ofOption st.arenas.getLast?).bind fun last =>
  (last.allocZeroed st.mem (32 + s.length + 1) 16).bind fun r =>
  if r.1 = 0 then .ub
  else
    (Res.ofOption (fillStr r.2.2 r.1 0 0 s)).bind fun m =>
    (Res.ofOption (m.loadWord (r.1 + 24))).bind fun len =>
    .ok (⟨r.1 + 32, len⟩, { st with mem := m, arenas := st.arenas.dropLast ++ [r.2.1] })

/-- interface.cpp 436-452 `cache_str`. -/
def cacheStr (cfg : Cfg) (st : St) (s : Bytes) : Res (Ref × St) :=
  if s.length > cfg.maxLen then (getCachedStrAllocator cfg st s.length).bind fun st => makeStr st s
  else
    let key := (Crc.crc32 s).toNat
    (st.cache.get key).bind fun found =>
    match found with
    | some (some r) => .ok (r, st)
    | some none => .ok (⟨0, 0⟩, st)
    | none =>
      (getCachedStrAllocator cfg st s.length).bind fun st =>
      (makeStr st s).bind fun p =>
      (p.2.cache.set cfg.crit key p.1).bind fun c =>
      .ok (p.1, { p.2 with cache := c })

/-- interface.cpp 474-477 `lookup_macro`. -/
def lookupMacro (st : St) (name : Bytes) : Res (Option (Option Macro)) := st.macros.get (Crc.crc32 name).toNat

/-- interface.cpp 479-485 `register_macro` (the name is not null). -/
def registerMacro (cfg : Cfg) (st : St) (name : Bytes) (type flags : Nat) : Res St :=
  (Res.assert (name.length > 0)).bind fun _ =>
  let key := (Crc.crc32 name).toNat
  (cacheStr cfg st name).bind fun p =>
  (p.2.macros.set cfg.crit key ⟨p.1, type, flags⟩).bind fun t => .ok { p.2 with macros := t }

/-- The body of the loops of `register_macros` / `register_macros_arr` (interface.cpp 493-500, 508-516): the key is
computed from the interned name. -/
def registerMacros1 (cfg : Cfg) (st : St) (name : Bytes) (type flags : Nat) : Res St :=
  (Res.assert (name.length > 0)).bind fun _ =>
  (cacheStr cfg st name).bind fun p =>
  (Res.ofOption (p.2.mem.loadN p.1.ptr p.1.len)).bind fun nm =>
  (p.2.macros.set cfg.crit (Crc.crc32 nm).toNat ⟨p.1, type, flags⟩).bind fun t => .ok { p.2 with macros := t }

/-- interface.cpp 487-517 `register_macros`, `register_macros_arr` (`num` is the length of the list). -/
def registerMacros (cfg : Cfg) (st : St) : List (Bytes × Nat × Nat) → Res St
  | [] => .ok st
  | (n, t, f) :: ms => (registerMacros1 cfg st n t f).bind fun st => registerMacros cfg st ms

/-- interface.cpp 304-321 (the part of `init` that sets up interning): one arena, empty tables of 8 buckets. -/
def init (cfg : Cfg) (mem : Mem) (b : Nat) (heap : List Nat) : St :=
  ⟨mem, heap, [⟨b, cfg.arenaSize, 0⟩], ⟨List.replicate 8 (-1), []⟩, ⟨List.replicate 8 (-1), []⟩⟩

/-- A use of the interface. -/
inductive Op where
  | cache (s : Bytes)
  | register (name : Bytes) (type flags : Nat)
  | registerMany (ms : List (Bytes × Nat × Nat))
  deriving Repr

/-- The interned strings returned so far are collected, oldest first. -/
def step (cfg : Cfg) (x : St × List Ref) : Op → Res (St × List Ref)
  | .cache s => (cacheStr cfg x.1 s).bind fun p => .ok (p.2, x.2 ++ [p.1])
  | .register n t f => (registerMacro cfg x.1 n t f).bind fun st => .ok (st, x.2)
  | .registerMany ms => (registerMacros cfg x.1 ms).bind fun st => .ok (st, x.2)

/-- Run a history. -/
def run (cfg : Cfg) : St × List Ref → List Op → Res (St × List Ref)
  | x, [] => .ok x
  | x, op :: ops => (step cfg x op).bind fun x => run cfg x ops

end Verif.Ctx
