import Verif.Model.Res
/-!
# Dynamic arrays

Models `Array<Type>` of the C++ library (base/dependencies/containers.hpp 125-395) and the array generated for the C
library (gen_c_library/components/containers.array.hpp 84-362).

The storage behind the header is a list of cells (`none` = indeterminate element); an access outside the list is `ub`.
Whole-element moves stand for the byte moves `mem_move`/`mem_copy` (theorem `C02_mem_move_as_if_buffered`). `items`
arguments are passed by value, i.e. they do not alias the array's own storage. Null array pointers (asserted against)
are not modelled. Counters do not overflow 64 bits. Whether an allocation returns null is a parameter (`mem`).
-/
namespace Verif

/-- Which of the two implementations. -/
inductive Lib where
  | cpp
  | clib
  deriving Repr, DecidableEq

/-- `ArrayHeader` (containers.hpp 17-22) plus the storage that follows it. -/
structure Arr (α : Type) where
  capacity : Nat
  num : Nat
  cells : List (Option α)
  deriving Repr, DecidableEq

namespace Arr
variable {α : Type}

/-- containers.hpp 146-149 `array_grow_formula`. -/
def growFormula (v : Nat) : Nat := 2 * v + 8

/-- containers.hpp 130-144 `array_init_reserve`; a null result is `none`. -/
def initReserve (mem : Bool) (capacity : Nat) : Res (Option (Arr α)) := do
  Res.assert (capacity > 0)
  if mem then pure (some ⟨capacity, 0, List.replicate capacity none⟩) else pure none

/-- containers.hpp 125-128 `array_init`. -/
def init (mem : Bool) : Res (Option (Arr α)) := initReserve mem (growFormula 0)

/-- `array[idx] = value`. -/
def setCell (a : Arr α) (i : Nat) (v : Option α) : Res (Arr α) :=
  if i < a.cells.length then .ok { a with cells := a.cells.set i v } else .ub

/-- `array[idx]`. -/
def getCell (a : Arr α) (i : Nat) : Res (Option α) := Res.ofOption a.cells[i]?

/-- `mem_move(array + dst, array + src, n * sizeof(Type))`. -/
def moveCells (a : Arr α) (dst src n : Nat) : Res (Arr α) :=
  if n = 0 then .ok a
  else if dst + n ≤ a.cells.length ∧ src + n ≤ a.cells.length then
    .ok { a with cells := a.cells.take dst ++ (a.cells.drop src).take n ++ a.cells.drop (dst + n) }
  else .ub

/-- `mem_copy(array + dst, items, n * sizeof(Type))`. -/
def copyIn (a : Arr α) (dst : Nat) (items : List (Option α)) : Res (Arr α) :=
  if dst + items.length ≤ a.cells.length then
    .ok { a with cells := a.cells.take dst ++ items ++ a.cells.drop (dst + items.length) }
  else .ub

/-- containers.hpp 365-395 `array_set_capacity`; C variant containers.array.hpp 340-372, which asserts
`new_capacity > 0` and frees `& header`, the address of a local: harmless for an allocator whose free does nothing
(`heap = false`), undefined behaviour for one that uses the pointer (`heap = true`). Result: `(success, array)`. -/
def setCapacity (lib : Lib) (heap mem : Bool) (a : Arr α) (newCap : Nat) : Res (Bool × Arr α) := do
  Res.assert (lib = .clib → newCap > 0)
  if newCap = a.capacity then return (true, a)
  if newCap < a.num then return (true, { a with num := newCap })
  if mem = false then return (false, a)
  if a.num ≤ a.cells.length then
    if lib = .clib ∧ heap then Res.ub
    else return (true, ⟨newCap, a.num, a.cells.take a.num ++ List.replicate (newCap - a.num) none⟩)
  else Res.ub

/-- containers.hpp 296-310 `array_grow` (C: 261-273). -/
def grow (lib : Lib) (heap mem : Bool) (a : Arr α) (minCap : Nat) : Res (Bool × Arr α) := do
  Res.assert (minCap > 0)
  setCapacity lib heap mem a (if growFormula a.capacity < minCap then minCap else growFormula a.capacity)

/-- containers.hpp 156-174 `array_append` (C: 112-130). -/
def append (lib : Lib) (heap mem : Bool) (a : Arr α) (v : α) : Res (Bool × Arr α) := do
  if a.num = a.capacity then
    let (ok, a') ← grow lib heap mem a a.capacity
    if ok = false then return (false, a')
    let a'' ← a'.setCell a'.num (some v)
    return (true, { a'' with num := a''.num + 1 })
  let a' ← a.setCell a.num (some v)
  return (true, { a' with num := a'.num + 1 })

/-- containers.hpp 176-196 `array_append_items` (C: 133-153). The C++ version copies to `(Type*)array + Num` where
`array` is the address of the `Array` variable itself: a write outside the storage. -/
def appendItems (lib : Lib) (heap mem : Bool) (a : Arr α) (items : List (Option α)) : Res (Bool × Arr α) := do
  Res.assert (items.length > 0)
  let (ok, a') ← if a.num + items.length > a.capacity then grow lib heap mem a (a.capacity + items.length)
                 else Res.ok (true, a)
  if ok = false then return (false, a')
  match lib with
  | .cpp => Res.ub
  | .clib =>
    let a'' ← a'.copyIn a'.num items
    return (true, { a'' with num := a''.num + items.length })

/-- containers.hpp 198-223 `array_append_at` (C: 156-181). `item` is never used. In the C version `idx` is unsigned:
with `Num = 0` it becomes 2^64-1 and the move starts far outside the storage. -/
def appendAt (lib : Lib) (heap mem : Bool) (a : Arr α) (_item : α) (idx : Nat) : Res (Bool × Arr α) := do
  if lib = .clib ∧ a.num = 0 then
    if a.capacity < a.num + 1 then
      let (ok, a') ← grow lib heap mem a (a.capacity + 1)
      if ok = false then return (false, a') else Res.ub
    else Res.ub
  else
    let slot := if idx ≥ a.num then a.num - 1 else idx
    let (ok, a') ← if a.capacity < a.num + 1 then grow lib heap mem a (a.capacity + 1) else Res.ok (true, a)
    if ok = false then return (false, a')
    let a'' ← a'.moveCells (slot + 1) slot (a'.num - slot)
    return (true, { a'' with num := a''.num + 1 })

/-- containers.array.hpp 185-212 `_append_items_at` of the C library (the C++ template, containers.hpp 225-251, does not
compile when instantiated). The capacity test compares `item_num` alone with the capacity. -/
def appendItemsAt (heap mem : Bool) (a : Arr α) (items : List (Option α)) (idx : Nat) : Res (Bool × Arr α) := do
  if idx ≥ a.num then appendItems .clib heap mem a items
  else
    let (ok, a') ← if items.length > a.capacity then grow .clib heap mem a (items.length + a.capacity)
                   else Res.ok (true, a)
    if ok = false then return (false, a')
    let a1 ← a'.moveCells (idx + items.length) idx (a'.num - idx)
    let a2 ← a1.copyIn idx items
    return (true, { a2 with num := a2.num + items.length })

/-- containers.hpp 253-263 `array_back`: null for an empty array. -/
def back (a : Arr α) : Res (Option (Option α)) :=
  if a.num = 0 then .ok none else do
    let v ← a.getCell (a.num - 1)
    pure (some v)

/-- containers.hpp 265-270 `array_clear`. -/
def clear (a : Arr α) : Arr α := { a with num := 0 }

/-- The loop of containers.hpp 281-283. -/
def fillLoop (a : Arr α) (i : Nat) (v : α) : Nat → Res (Arr α)
  | 0 => .ok a
  | k+1 => do
    let a' ← a.setCell i (some v)
    fillLoop a' (i+1) v k

/-- containers.hpp 272-286 `array_fill`. -/
def fill (a : Arr α) (b e : Nat) (v : α) : Res (Bool × Arr α) := do
  Res.assert (b ≤ e)
  if e > a.num then return (false, a)
  let a' ← a.fillLoop b v (e - b)
  return (true, a')

/-- containers.hpp 318-324 `array_pop` (C: 283-292, which returns the popped element). -/
def pop (a : Arr α) : Res (Option α × Arr α) := do
  Res.assert (a.num > 0)
  let v ← a.getCell (a.num - 1)
  pure (v, { a with num := a.num - 1 })

/-- containers.hpp 326-335 `array_remove_at` (C: 295-303). -/
def removeAt (a : Arr α) (idx : Nat) : Res (Arr α) := do
  Res.assert (idx < a.num)
  let a' ← a.moveCells idx (idx + 1) (a.num - idx - 1)
  pure { a' with num := a'.num - 1 }

/-- containers.array.hpp 306-317 `_reserve` of the C library (the C++ template, containers.hpp 337-348, does not compile
when instantiated: it passes the `Array*` where an `Array` is expected). -/
def reserve (heap mem : Bool) (a : Arr α) (newCap : Nat) : Res (Bool × Arr α) := do
  Res.assert (newCap > 0)
  if a.capacity < newCap then setCapacity .clib heap mem a newCap else return (true, a)

/-- containers.hpp 350-363 `array_resize` (C: 320-337, which asserts `num > 0`). -/
def resize (lib : Lib) (heap mem : Bool) (a : Arr α) (n : Nat) : Res (Bool × Arr α) := do
  Res.assert (lib = .clib → n > 0)
  let (ok, a') ← if a.capacity < n then grow lib heap mem a n else Res.ok (true, a)
  if ok = false then return (false, a')
  return (true, { a' with num := n })

/-- One call on an array. -/
inductive Op (α : Type) where
  | append (v : α)
  | appendItems (vs : List α)
  | pop
  | removeAt (i : Nat)
  | clear
  | fill (b e : Nat) (v : α)
  | back
  | grow (n : Nat)
  | reserve (n : Nat)
  | setCapacity (n : Nat)
  | resize (n : Nat)
  deriving Repr, DecidableEq

/-- What a call returns. -/
inductive Out (α : Type) where
  | none
  | bool (b : Bool)
  | elem (v : Option (Option α))
  deriving Repr, DecidableEq

/-- Perform a call. `mem` says whether an allocation made during the call succeeds. `append_items`, `reserve` and the
value of `pop` are those of the C library; in the C++ one `pop` returns nothing and `reserve` is not instantiable. -/
def step (lib : Lib) (heap mem : Bool) (a : Arr α) : Op α → Res (Out α × Arr α)
  | .append v => do let (b, a') ← append lib heap mem a v; pure (.bool b, a')
  | .appendItems vs => do let (b, a') ← appendItems lib heap mem a (vs.map some); pure (.bool b, a')
  | .pop => do
    let (v, a') ← pop a
    pure (match lib with | .cpp => .none | .clib => .elem (some v), a')
  | .removeAt i => do let a' ← removeAt a i; pure (.none, a')
  | .clear => .ok (.none, clear a)
  | .fill b e v => do let (r, a') ← fill a b e v; pure (.bool r, a')
  | .back => do let r ← back a; pure (.elem r, a)
  | .grow n => do let (b, a') ← grow lib heap mem a n; pure (.bool b, a')
  | .reserve n => match lib with
    | .cpp => .stop
    | .clib => do let (b, a') ← reserve heap mem a n; pure (.bool b, a')
  | .setCapacity n => do let (b, a') ← setCapacity lib heap mem a n; pure (.bool b, a')
  | .resize n => do let (b, a') ← resize lib heap mem a n; pure (.bool b, a')

end Arr
end Verif
