import Verif.Model.HashTable
import Verif.Model.Array
/-!
# Hash table of the generated C library

Models gen_c_library/components/containers.hashtable.hpp 109-370. `Entries` keeps its storage (`Arr`), because
`_rehash` reads elements between `Num` and the capacity: those cells are zero bytes (the allocator clears blocks) or
stale elements. The allocator's free is a no-op (arena-backed contexts; see `C08_clib_heap_refuted` for the other case)
and allocations succeed.
-/
namespace Verif

structure CTable (α : Type) where
  hashes : List Int
  entries : Arr (HEntry α)
  deriving Repr, DecidableEq

namespace CTable
variable {α : Type}

/-- `Entries[idx]`: a never-written cell reads as zero bytes; outside the storage is `ub`. -/
def entryAt (t : CTable α) (i : Int) : Res (HEntry α) :=
  if i < 0 then .ub else
  match t.entries.cells[i.toNat]? with
  | none => .ub
  | some none => .ok ⟨0, 0, none⟩
  | some (some e) => .ok e

/-- `Entries[idx] = e` (field updates go through this). -/
def putEntry (t : CTable α) (i : Int) (e : HEntry α) : Res (CTable α) :=
  if i < 0 then .ub else do
    let a ← t.entries.setCell i.toNat (some e)
    pure { t with entries := a }

/-- containers.hashtable.hpp 115-125 `_init_reserve`. -/
def initReserve (num : Nat) : Res (CTable α) := do
  Res.assert (num > 0)
  pure ⟨List.replicate num (-1), ⟨num, 0, List.replicate num none⟩⟩

/-- The loop of 340-347, as in the C++ table. -/
def findLoop (t : CTable α) (key : Nat) : Nat → FindResult → Res FindResult
  | 0, _ => .hang
  | fuel+1, r =>
    if r.entryIndex < 0 then .ok r
    else do
      let e ← t.entryAt r.entryIndex
      if e.key = key then pure r
      else findLoop t key fuel { r with prevIndex := r.entryIndex, entryIndex := e.next }

/-- 330-352 `__find`; the fuel exceeds the number of cells, so running out means a cycle. -/
def find (t : CTable α) (key : Nat) : Res FindResult :=
  if t.hashes.length = 0 then .ok ⟨-1, -1, -1⟩
  else do
    let h := key % t.hashes.length
    let e ← Res.ofOption t.hashes[h]?
    findLoop t key (t.entries.cells.length + 1) ⟨h, -1, e⟩

/-- 147-156 `_get`: note `idx > 0`. -/
def get (t : CTable α) (key : Nat) : Res (Option (Option α)) := do
  let r ← t.find key
  if r.entryIndex > 0 then do
    let e ← t.entryAt r.entryIndex
    pure (some e.value)
  else pure none

/-- 317-328 `__add_entry`. -/
def addEntry (t : CTable α) (key : Nat) : Res (CTable α × Int) := do
  let (_, a) ← Arr.append .clib false true t.entries ⟨key, -1, none⟩
  pure ({ t with entries := a }, t.entries.num)

def setNext (t : CTable α) (i n : Int) : Res (CTable α) := do
  let e ← t.entryAt i
  t.putEntry i { e with next := n }

def setValue (t : CTable α) (i : Int) (v : Option α) : Res (CTable α) := do
  let e ← t.entryAt i
  t.putEntry i { e with value := v }

def setHash (t : CTable α) (i n : Int) : Res (CTable α) := do
  let hs ← HTable.put t.hashes i n
  pure { t with hashes := hs }

/-- 213-216. -/
def linkAt (t : CTable α) (r : FindResult) (idx : Int) : Res (CTable α) :=
  if r.prevIndex < 0 then t.setHash r.hashIndex idx else t.setNext r.prevIndex idx

/-- The loop of 205-220: runs over `idx < old_hash_header->Num`, i.e. the number of *buckets*. -/
def rehashLoop (old nt : CTable α) (idx : Nat) : Nat → Res (CTable α)
  | 0 => .ok nt
  | n+1 => do
    let e ← old.entryAt idx
    let r ← nt.find e.key
    let (nt, last) ← nt.addEntry e.key
    let nt ← nt.linkAt r last
    let nt ← nt.setNext last r.entryIndex
    let nt ← nt.setValue last e.value
    rehashLoop old nt (idx+1) n

/-- 189-224 `_rehash`: `new_num` is only checked, the new table has as many buckets as the old one. -/
def rehash (t : CTable α) (newNum : Nat) : Res (CTable α) := do
  Res.assert (newNum > 0)
  let nt ← initReserve t.hashes.length
  rehashLoop t nt 0 t.hashes.length

/-- 180-187 `_grow`. -/
def grow (t : CTable α) : Res (CTable α) := t.rehash (2 * t.entries.num + 8)

/-- 354-360 `__full`; the threshold is a parameter as in the C++ model. -/
def full (crit : Nat → Nat) (t : CTable α) : Bool := t.entries.num > crit t.hashes.length

def growIfFull (crit : Nat → Nat) (t : CTable α) : Res (CTable α) := if t.full crit then t.grow else .ok t

/-- 280-281: grow only if there are no buckets. -/
def growIfEmpty (t : CTable α) : Res (CTable α) := if t.hashes.length = 0 then t.grow else .ok t

/-- 292-297. -/
def linkSet (t : CTable α) (r : FindResult) (idx : Int) : Res (CTable α) :=
  if r.prevIndex ≥ 0 then t.setNext r.prevIndex idx else t.setHash r.hashIndex idx

/-- 283-300. -/
def insert (t : CTable α) (key : Nat) (v : α) : Res (CTable α) := do
  let r ← t.find key
  if r.entryIndex ≥ 0 then t.setValue r.entryIndex (some v)
  else do
    let (t, idx) ← t.addEntry key
    let t ← t.linkSet r idx
    t.setValue idx (some v)

/-- 272-304 `_set`. -/
def set (crit : Nat → Nat) (t : CTable α) (key : Nat) (v : α) : Res (CTable α) := do
  let t ← t.growIfEmpty
  let t ← t.insert key v
  t.growIfFull crit

/-- A history of sets. -/
def setAll (crit : Nat → Nat) (t : CTable α) : List (Nat × α) → Res (CTable α)
  | [] => .ok t
  | (k, v) :: r => do
    let t ← t.set crit k v
    setAll crit t r

end CTable
end Verif
