import Verif.Model.Res
/-!
# Hash table

Models `HashTable<Type>` (base/dependencies/containers.hpp 443-772). The two arrays `Hashes` and `Entries` are lists
(their list behaviour is theorem `C08_history`; every allocation succeeds). `ssize` indices are integers, `-1` is "none";
`u64` keys are naturals. An index outside a list is `ub`. The pointer chase of `hashtable__find` gets fuel `#Entries + 1`:
a chase that long has met some entry twice and never ends (`hang`).

`hashtable_remove`, `hashtable_rehash_fast` and `hashtable_map` are written with unqualified helper names (`find`,
`remove_at`, `num`) that are not declared under those names in the C++ library; they are modelled with the evident
meaning, which is literally what the C library's copies (containers.hashtable.hpp 226-263) do.

The load threshold `usize(0.7f * f32(n))` is a parameter `crit`: no theorem depends on its value.
-/
namespace Verif

/-- containers.hpp 458-463 `HashTableEntry`; `value = none` is the zero value of a freshly added entry. -/
structure HEntry (α : Type) where
  key : Nat
  next : Int
  value : Option α
  deriving Repr, DecidableEq

/-- containers.hpp 452-456 `HashTableFindResult`. -/
structure FindResult where
  hashIndex : Int
  prevIndex : Int
  entryIndex : Int
  deriving Repr, DecidableEq

/-- containers.hpp 488-515 `HashTable`. -/
structure HTable (α : Type) where
  hashes : List Int
  entries : List (HEntry α)
  deriving Repr, DecidableEq

namespace HTable
variable {α : Type}

/-- `array[idx]` with a signed index. -/
def at? {β : Type} (l : List β) (i : Int) : Res β :=
  if i < 0 then .ub else Res.ofOption l[i.toNat]?

/-- `array[idx] = v` with a signed index. -/
def put {β : Type} (l : List β) (i : Int) (v : β) : Res (List β) :=
  if i < 0 then .ub else if i.toNat < l.length then .ok (l.set i.toNat v) else .ub

/-- containers.hpp 531-543 `hashtable_init_reserve` (`hashtable_init`, 525-529, is `num = 8`). -/
def initReserve (num : Nat) : Res (HTable α) := do
  Res.assert (num > 0)
  pure ⟨List.replicate num (-1), []⟩

/-- The loop of containers.hpp 752-759. -/
def findLoop (t : HTable α) (key : Nat) : Nat → FindResult → Res FindResult
  | 0, _ => .hang
  | fuel+1, r =>
    if r.entryIndex < 0 then .ok r
    else do
      let e ← at? t.entries r.entryIndex
      if e.key = key then pure r
      else findLoop t key fuel { r with prevIndex := r.entryIndex, entryIndex := e.next }

/-- containers.hpp 740-763 `hashtable__find`. -/
def find (t : HTable α) (key : Nat) : Res FindResult :=
  if t.hashes.length = 0 then .ok ⟨-1, -1, -1⟩
  else do
    let h := key % t.hashes.length
    let e ← Res.ofOption t.hashes[h]?
    findLoop t key (t.entries.length + 1) ⟨h, -1, e⟩

/-- containers.hpp 563-572 `hashtable_get`: the value found, or `none` for null. -/
def get (t : HTable α) (key : Nat) : Res (Option (Option α)) := do
  let r ← t.find key
  if r.entryIndex ≥ 0 then do
    let e ← at? t.entries r.entryIndex
    pure (some e.value)
  else pure none

/-- containers.hpp 545-551 `hashtable_clear`. -/
def clear (t : HTable α) : HTable α := ⟨t.hashes.map (fun _ => -1), []⟩

/-- containers.hpp 727-738 `hashtable__add_entry`. -/
def addEntry (t : HTable α) (key : Nat) : HTable α × Int :=
  ({ t with entries := t.entries ++ [⟨key, -1, none⟩] }, t.entries.length)

/-- `Entries[i].Next = n`. -/
def setNext (t : HTable α) (i n : Int) : Res (HTable α) := do
  let e ← at? t.entries i
  let es ← put t.entries i { e with next := n }
  pure { t with entries := es }

/-- `Entries[i].Value = v`. -/
def setValue (t : HTable α) (i : Int) (v : Option α) : Res (HTable α) := do
  let e ← at? t.entries i
  let es ← put t.entries i { e with value := v }
  pure { t with entries := es }

/-- `Hashes[i] = n`. -/
def setHash (t : HTable α) (i n : Int) : Res (HTable α) := do
  let hs ← put t.hashes i n
  pure { t with hashes := hs }

/-- containers.hpp 622-625 (and 656-659): link entry `idx` behind the last entry of its bucket. -/
def linkAt (t : HTable α) (r : FindResult) (idx : Int) : Res (HTable α) :=
  if r.prevIndex < 0 then t.setHash r.hashIndex idx else t.setNext r.prevIndex idx

/-- The body of the loop of containers.hpp 614-629. -/
def rehashOne (nt : HTable α) (e : HEntry α) : Res (HTable α) := do
  let r ← nt.find e.key
  let (nt, last) := nt.addEntry e.key
  let nt ← nt.linkAt r last
  let nt ← nt.setNext last r.entryIndex
  nt.setValue last e.value

def rehashLoop (nt : HTable α) : List (HEntry α) → Res (HTable α)
  | [] => .ok nt
  | e :: es => do
    let nt ← rehashOne nt e
    rehashLoop nt es

/-- containers.hpp 605-633 `hashtable_rehash`. -/
def rehash (t : HTable α) (newNum : Nat) : Res (HTable α) := do
  let nt ← initReserve newNum
  rehashLoop nt t.entries

/-- containers.hpp 596-603 `hashtable_grow`. -/
def grow (t : HTable α) : Res (HTable α) := t.rehash (2 * t.entries.length + 8)

/-- containers.hpp 765-772 `hashtable_full`. -/
def full (crit : Nat → Nat) (t : HTable α) : Bool := t.entries.length > crit t.hashes.length

/-- containers.hpp 702-707. -/
def linkSet (t : HTable α) (r : FindResult) (idx : Int) : Res (HTable α) :=
  if r.prevIndex ≥ 0 then t.setNext r.prevIndex idx else t.setHash r.hashIndex idx

/-- containers.hpp 691-692 and 712-713. -/
def growIfFull (crit : Nat → Nat) (t : HTable α) : Res (HTable α) :=
  if t.full crit then t.grow else .ok t

/-- containers.hpp 694-710: find or add the entry, link it, write the value. -/
def insert (t : HTable α) (key : Nat) (v : α) : Res (HTable α) := do
  let r ← t.find key
  if r.entryIndex ≥ 0 then t.setValue r.entryIndex (some v)
  else do
    let (t, idx) := t.addEntry key
    let t ← t.linkSet r idx
    t.setValue idx (some v)

/-- containers.hpp 682-714 `hashtable_set`. -/
def set (crit : Nat → Nat) (t : HTable α) (key : Nat) (v : α) : Res (HTable α) := do
  let t ← t.growIfFull crit
  let t ← t.insert key v
  t.growIfFull crit

/-- The loop of containers.hpp 648-660 from index `idx`, `n` iterations. -/
def relink (t : HTable α) (idx : Nat) : Nat → Res (HTable α)
  | 0 => .ok t
  | n+1 => do
    let e ← at? t.entries idx
    let r ← t.find e.key
    let t ← t.linkAt r idx
    relink t (idx+1) n

/-- containers.hpp 635-661 `hashtable_rehash_fast`. -/
def rehashFast (t : HTable α) : Res (HTable α) :=
  relink ⟨t.hashes.map (fun _ => -1), t.entries.map (fun e => { e with next := -1 })⟩ 0 t.entries.length

/-- containers.hpp 663-673 `hashtable_remove`. -/
def remove (t : HTable α) (key : Nat) : Res (HTable α) := do
  let r ← t.find key
  if r.entryIndex ≥ 0 then rehashFast { t with entries := t.entries.eraseIdx r.entryIndex.toNat }
  else pure t

/-- containers.hpp 675-680 `hashtable_remove_entry`: no relinking. -/
def removeEntry (t : HTable α) (idx : Nat) : Res (HTable α) := do
  Res.assert (idx < t.entries.length)
  pure { t with entries := t.entries.eraseIdx idx }

/-- containers.hpp 716-725 `hashtable_slot`: compares a bucket head *index* with the key. `-1` as a `u64` is 2^64-1. -/
def slot (t : HTable α) (key : Nat) : Int :=
  match t.hashes.findIdx? (fun (h : Int) => if h < 0 then decide (key = 2^64 - 1) else decide (h = (key : Int))) with
  | some i => i
  | none => -1

/-- containers.hpp 574-583 `hashtable_map`: the calls made, in order. -/
def mapCalls (t : HTable α) : List (Nat × Option α) := t.entries.map (fun e => (e.key, e.value))

end HTable
end Verif
