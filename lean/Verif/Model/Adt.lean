import Verif.Model.AdtNumber
import Verif.Model.Array
/-!
# Data trees

Models base/dependencies/parsing.cpp 14-441: `adt_make_branch`, `adt_destroy_branch`, `adt_make_leaf`, `adt_find`, `adt_query`, `adt_alloc_at`, `adt_alloc`,
`adt_set_*`, `adt_move_node*`, `adt_swap_nodes`, `adt_remove_node`, `adt_append_*`.

A pointer to a node is a variable of the user or a cell of the array of some branch. An array lives in a block of the heap; growing it moves it to a new block and
frees the old one (containers.hpp 365-395), and whoever still points there points into freed memory (`ub`).

Simplifications: the members of the union of a node are fields of their own; every function here reads the member that goes with the type of the node, and sets
type and member together. The memory of a new array is zero (the allocators clear what they hand out), so a cell that was never written is a node of zeros.
Strings are held without their terminator, and the user does not change or free them. Whether an allocation succeeds is a parameter (`mem`).
-/
namespace Verif.Adt
open Verif.Fmt

/-- `ADT_Node*`, not null. -/
inductive Ref where
  | var (k : Nat)
  | cell (b i : Nat)
  deriving DecidableEq, Repr

/-- parsing.hpp 66-109 `ADT_Node`; `nodes` is the block of the array. -/
structure Node where
  name : Option Bytes := none
  parent : Option Ref := none
  num : Number := {}
  string : Option Bytes := none
  nodes : Option Nat := none
  deriving DecidableEq, Repr

/-- The nodes of the user and the arrays; `none` is a block that was freed. -/
structure Heap where
  vars : List Node
  blocks : List (Option (Arr Node))
  deriving DecidableEq, Repr

/-- The array in a block. -/
def Heap.block (h : Heap) (b : Nat) : Res (Arr Node) := match h.blocks[b]? with
  | some (some a) => .ok a
  | _ => .ub

/-- The node in a cell. -/
def cellAt (a : Arr Node) (i : Nat) : Res Node := (a.getCell i).bind fun c => .ok (c.getD {})

/-- `*node`. -/
def Heap.read (h : Heap) : Ref → Res Node
  | .var k => Res.ofOption h.vars[k]?
  | .cell b i => (h.block b).bind fun a => cellAt a i

/-- A block gets another content. -/
def Heap.setBlock (h : Heap) (b : Nat) (a : Option (Arr Node)) : Heap := { h with blocks := h.blocks.set b a }

/-- `*node = n`. -/
def Heap.write (h : Heap) (n : Node) : Ref → Res Heap
  | .var k => if k < h.vars.length then .ok { h with vars := h.vars.set k n } else .ub
  | .cell b i => (h.block b).bind fun a => (a.setCell i (some n)).bind fun a => .ok (h.setBlock b (some a))

/-- The type of a branch. -/
def branchTy (isArray : Bool) : Ty := if isArray then .array else .object

/-- `type == EADT_TYPE_OBJECT || type == EADT_TYPE_ARRAY`. -/
def isBranch (n : Node) : Bool := n.num.type = .object ∨ n.num.type = .array

/-- parsing.cpp 14-33 `adt_make_branch`; `true` is `EADT_ERROR_OUT_OF_MEMORY`. -/
def makeBranch (mem : Bool) (h : Heap) (r : Ref) (name : Option Bytes) (isArray : Bool) : Res (Bool × Heap) := do
  let n ← h.read r
  let a ← Arr.init (α := Node) mem
  match a with
  | none => do
    let h ← h.write { name := name, parent := n.parent, num := { type := branchTy isArray } } r
    pure (true, h)
  | some a => do
    let h' ← { h with blocks := h.blocks ++ [some a] }.write
      { name := name, parent := n.parent, num := { type := branchTy isArray }, nodes := some h.blocks.length } r
    pure (false, h')

/-- parsing.cpp 40-43: the loop of `adt_destroy_branch`. -/
def destroyLoop (rec : Heap → Ref → Res Heap) (r : Ref) : Nat → Nat → Heap → Res Heap
  | 0, _, _ => .hang
  | k + 1, i, h => do
    let n ← h.read r
    let b ← Res.ofOption n.nodes
    let a ← h.block b
    if i < a.num then
      let h ← rec h (.cell b i)
      destroyLoop rec r k (i + 1) h
    else pure h

/-- parsing.cpp 45, containers.hpp 294-302 `array_free( node->nodes )`. -/
def freeNodes (h : Heap) (r : Ref) : Res Heap := do
  let n ← h.read r
  let b ← Res.ofOption n.nodes
  let _ ← h.block b
  (h.setBlock b none).write { n with nodes := none } r

/-- parsing.cpp 35-48 `adt_destroy_branch`. -/
def destroyBranch : Nat → Heap → Ref → Res Heap
  | 0, _, _ => .hang
  | fuel + 1, h, r => do
    let n ← h.read r
    if isBranch n then
      match n.nodes with
      | none => pure h
      | some b => do
        let a ← h.block b
        let h ← destroyLoop (destroyBranch fuel) r (a.num + 1) 0 h
        freeNodes h r
    else pure h

/-- parsing.cpp 50-61 `adt_make_leaf`. -/
def makeLeaf (h : Heap) (r : Ref) (name : Option Bytes) (type : Ty) : Res Heap := do
  Res.assert (type ≠ .object ∧ type ≠ .array)
  let n ← h.read r
  h.write { name := name, parent := n.parent, num := { type := type } } r

/-- `! c_str_compare( s, t )` for a pointer `s` that may be null; `t` is a buffer. -/
def sameText (s : Option Bytes) (t : Bytes) : Res Bool := do
  let s ← Res.ofOption s
  let v ← CStr.compare (s ++ [0]) t
  pure (v == 0)

/-- parsing.cpp 70-76: `k` nodes from `i` on. -/
def findName (a : Arr Node) (b : Nat) (name : Bytes) : Nat → Nat → Res (Option Ref)
  | 0, _ => .ok none
  | k + 1, i => do
    let n ← cellAt a i
    let eq ← sameText n.name name
    if eq then pure (some (.cell b i)) else findName a b name k (i + 1)

/-- parsing.cpp 80-86: the children are searched in turn. -/
def findDeep (rec : Ref → Res (Option Ref)) (b : Nat) : Nat → Nat → Res (Option Ref)
  | 0, _ => .ok none
  | k + 1, i => do
    let res ← rec (.cell b i)
    if res.isSome then pure res else findDeep rec b k (i + 1)

/-- parsing.cpp 63-90 `adt_find`; `name` is a buffer that holds a C string. -/
def find : Nat → Heap → Ref → Bytes → Bool → Res (Option Ref)
  | 0, _, _, _, _ => .hang
  | fuel + 1, h, r, name, deep => do
    let n ← h.read r
    if n.num.type ≠ .object then return none
    let b ← Res.ofOption n.nodes
    let a ← h.block b
    let res ← findName a b name a.num 0
    if res.isSome then return res
    if deep then findDeep (fun r => find fuel h r name deep) b a.num 0 else return none

/-- parsing.cpp 92-130 `_adt_get_value`: whether the node is returned. The text of a number goes to a buffer of 4096 zero bytes; one that fills it leaves no
terminator. -/
def getValue (F : F64) (lt : Bool) (n : Node) (value : Bytes) : Res Bool :=
  match n.num.type with
  | .string | .multistring => if n.string = none then .ok false else sameText n.string value
  | .integer | .real => do
    let ps ← printNumber F lt n.num
    let text := (ps.getD []).flatten
    if text.length < 4096 then sameText (some text) value else .ub
  | _ => .ok false

/-- parsing.cpp 132-147: `k` nodes from `i` on. -/
def fieldLoop (F : F64) (lt : Bool) (a : Arr Node) (name value : Bytes) : Nat → Nat → Res Bool
  | 0, _ => .ok false
  | k + 1, i => do
    let n ← cellAt a i
    let eq ← sameText n.name name
    let found ← if eq then getValue F lt n value else Res.ok false
    if found then pure true else fieldLoop F lt a name value k (i + 1)

/-- parsing.cpp 132-150 `_adt_get_field`. -/
def getField (F : F64) (lt : Bool) (h : Heap) (r : Ref) (name value : Bytes) : Res (Option Ref) := do
  let n ← h.read r
  let b ← Res.ofOption n.nodes
  let a ← h.block b
  let found ← fieldLoop F lt a name value a.num 0
  pure (if found then some r else none)

/-- parsing.cpp 207-219: the objects of an array are asked in turn. -/
def objectsLoop (F : F64) (lt : Bool) (h : Heap) (a : Arr Node) (b : Nat) (name value : Bytes) : Nat → Nat → Res (Option Ref)
  | 0, _ => .ok none
  | k + 1, i => do
    let n ← cellAt a i
    let found ← if n.num.type = .object then getField F lt h (.cell b i) name value else Res.ok none
    if found.isSome then pure found else objectsLoop F lt h a b name value k (i + 1)

/-- parsing.cpp 224-232: the values of an array are compared in turn. -/
def valuesLoop (F : F64) (lt : Bool) (a : Arr Node) (b : Nat) (value : Bytes) : Nat → Nat → Res (Option Ref)
  | 0, _ => .ok none
  | k + 1, i => do
    let n ← cellAt a i
    let found ← getValue F lt n value
    if found then pure (some (.cell b i)) else valuesLoop F lt a b value k (i + 1)

/-- parsing.cpp 182-233: `[field=value]` and `[value]`; `buf` is the step, with its brackets. -/
def queryBracket (F : F64) (lt : Bool) (h : Heap) (r : Ref) (n : Node) (b : Nat) (a : Arr Node) (buf : Bytes) : Res (Option Ref) := do
  let le ← CStr.skip (buf.drop 1) 61
  let le2 ← CStr.skip (buf.drop 1) 93
  let ce ← Csv.at_ buf (1 + le)
  let ce2 ← Csv.at_ buf (1 + le2)
  Res.assert (¬ ((ce = 0 ∧ n.num.type ≠ .array) ∨ ce2 = 0))
  let buf ← Num.put buf (1 + le2) 0
  let ce ← Csv.at_ buf (1 + le)
  if ce ≠ 0 then
    let buf ← Num.put buf (1 + le) 0
    if n.num.type = .object then getField F lt h r (buf.drop 1) (buf.drop (1 + le + 1))
    else objectsLoop F lt h a b (buf.drop 1) (buf.drop (1 + le + 1)) a.num 0
  else valuesLoop F lt a b (buf.drop 1) a.num 0

/-- parsing.cpp 172-178 `c_str_fmt_buf( "%.*s", ( int )( e - b ), b )`; the static buffer of the function is taken to be zero: what it holds behind the text is not
looked at. -/
def stepBuf (lt : Bool) (uri : Bytes) (e : Nat) : Res Bytes :=
  (cStrFmt lt (List.replicate printfMax 0) printfMax b!"%.*s\x00" [.int e, .cstr (some (uri ++ [0]))]).bind fun r => .ok r.1

/-- parsing.cpp 152-166: a slash in front is skipped. -/
def skipSlash (uri : Bytes) : Bytes := if uri.head? = some 47 then uri.drop 1 else uri

/-- parsing.cpp 248-258: the index of a node in an array. -/
def queryIndex (lt : Bool) (b : Nat) (a : Arr Node) (buf : Bytes) : Res (Option Ref) := do
  let (idx, _) ← Num.cStrToI64 lt buf 10
  pure (if 0 ≤ idx ∧ idx < a.num then some (.cell b idx.toNat) else none)

/-- parsing.cpp 172-258: one step from a branch: the node found, and where the step ends. -/
def queryStep (F : F64) (lt : Bool) (h : Heap) (r : Ref) (n : Node) (uri : Bytes) : Res (Option Ref × Nat) := do
  let e ← CStr.skip (uri ++ [0]) 47
  let buf ← stepBuf lt uri e
  let c ← Csv.at_ (uri ++ [0]) 0
  if c = 91 then
    let b ← Res.ofOption n.nodes
    let a ← h.block b
    let found ← queryBracket F lt h r n b a buf
    pure (found, e)
  else if n.num.type = .object then
    let found ← find 1 h r buf false
    pure (found, e)
  else
    let b ← Res.ofOption n.nodes
    let a ← h.block b
    let found ← queryIndex lt b a buf
    pure (found, e)

/-- parsing.cpp 152-264 `adt_query`; the node may be null. -/
def query (F : F64) (lt : Bool) : Nat → Heap → Option Ref → Bytes → Res (Option Ref)
  | 0, _, _, _ => .hang
  | fuel + 1, h, r, uri => do
    let uri := skipSlash uri
    if uri = [] then return r
    match r with
    | none => return none
    | some r => do
      let n ← h.read r
      if !isBranch n then return none
      let (found, e) ← queryStep F lt h r n uri
      if e < uri.length then query F lt fuel h found (uri.drop (e + 1)) else pure found

/-- What `array_append_at( parent->nodes, o, index )` does to the heap: the array stays in its block, or moves to a new one. -/
def putArray (h : Heap) (parent : Ref) (n : Node) (b : Nat) (a a' : Arr Node) : Res (Nat × Heap) :=
  if a'.capacity = a.capacity then .ok (b, h.setBlock b (some a'))
  else (Heap.write { h with blocks := h.blocks.set b none ++ [some a'] } { n with nodes := some h.blocks.length } parent).bind fun h' =>
    .ok (h.blocks.length, h')

/-- parsing.cpp 266-286 `adt_alloc_at`. -/
def allocAt (lib : Lib) (heap mem : Bool) (h : Heap) (parent : Option Ref) (index : Int) : Res (Option Ref × Heap) := do
  match parent with
  | none => return (none, h)
  | some p => do
    let n ← h.read p
    if !isBranch n then return (none, h)
    match n.nodes with
    | none => return (none, h)
    | some b => do
      let a ← h.block b
      if index < 0 ∨ index > a.num then return (none, h)
      let (ok, a') ← Arr.appendAt lib heap mem a { parent := some p } index.toNat
      if ok = false then return (none, h)
      let (b', h') ← putArray h p n b a a'
      pure (some (.cell b' index.toNat), h')

/-- parsing.cpp 288-299 `adt_alloc`. -/
def alloc (lib : Lib) (heap mem : Bool) (h : Heap) (parent : Option Ref) : Res (Option Ref × Heap) := do
  match parent with
  | none => return (none, h)
  | some p => do
    let n ← h.read p
    if !isBranch n then return (none, h)
    match n.nodes with
    | none => return (none, h)
    | some b => do
      let a ← h.block b
      allocAt lib heap mem h parent a.num

/-- parsing.cpp 311-316 `adt_set_str`. -/
def setStr (h : Heap) (r : Ref) (name value : Option Bytes) : Res Heap := do
  let h ← makeLeaf h r name .string
  let n ← h.read r
  h.write { n with string := value } r

/-- parsing.cpp 318-323 `adt_set_flt`. -/
def setFlt (h : Heap) (r : Ref) (name : Option Bytes) (value : UInt64) : Res Heap := do
  let h ← makeLeaf h r name .real
  let n ← h.read r
  h.write { n with num := { n.num with real := value } } r

/-- parsing.cpp 325-330 `adt_set_int`. -/
def setInt (h : Heap) (r : Ref) (name : Option Bytes) (value : Int) : Res Heap := do
  let h ← makeLeaf h r name .integer
  let n ← h.read r
  h.write { n with num := { n.num with integer := value } } r

/-- `pointer_diff( parent->nodes, node ) / size_of( ADT_Node )`: defined for a pointer into that array. -/
def indexIn (h : Heap) (parent node : Ref) : Res (Nat × Nat) := do
  let p ← h.read parent
  let b ← Res.ofOption p.nodes
  match node with
  | .cell b' i => if b' = b then pure (b, i) else .ub
  | .var _ => .ub

/-- parsing.cpp 371-378 `adt_remove_node`. -/
def removeNode (h : Heap) (r : Ref) : Res Heap := do
  let n ← h.read r
  Res.assert n.parent.isSome
  let p ← Res.ofOption n.parent
  let (b, i) ← indexIn h p r
  let a ← h.block b
  let a ← a.removeAt i
  pure (h.setBlock b (some a))

/-- parsing.cpp 332-345 `adt_move_node_at`. -/
def moveNodeAt (lib : Lib) (heap mem : Bool) (h : Heap) (r newParent : Ref) (index : Int) : Res (Ref × Heap) := do
  let old := (← h.read r).parent
  let (new, h) ← allocAt lib heap mem h (some newParent) index
  let new ← Res.ofOption new
  let n ← h.read r
  let h ← h.write { n with parent := some newParent } new
  if old.isSome then
    let h ← removeNode h r
    pure (new, h)
  else pure (new, h)

/-- parsing.cpp 347-353 `adt_move_node`. -/
def moveNode (lib : Lib) (heap mem : Bool) (h : Heap) (r newParent : Ref) : Res (Ref × Heap) := do
  let p ← h.read newParent
  Res.assert (isBranch p)
  let b ← Res.ofOption p.nodes
  let a ← h.block b
  moveNodeAt lib heap mem h r newParent a.num

/-- parsing.cpp 355-369 `adt_swap_nodes`. -/
def swapNodes (h : Heap) (r other : Ref) : Res Heap := do
  let p ← Res.ofOption (← h.read r).parent
  let p2 ← Res.ofOption (← h.read other).parent
  let (b, i) ← indexIn h p r
  let (b2, i2) ← indexIn h p2 other
  let temp ← h.read (.cell b i)
  let o ← h.read (.cell b2 i2)
  let h ← h.write { o with parent := some p } (.cell b2 i2)
  let o ← h.read (.cell b2 i2)
  let h ← h.write o (.cell b i)
  h.write { temp with parent := some p2 } (.cell b2 i2)

/-- parsing.cpp 380-406 `adt_append_obj`, `adt_append_arr`; `mem2` is the second allocation. -/
def appendBranch (lib : Lib) (heap mem mem2 : Bool) (h : Heap) (parent : Option Ref) (name : Option Bytes) (isArray : Bool) : Res (Option Ref × Heap) := do
  let (o, h) ← alloc lib heap mem h parent
  match o with
  | none => return (none, h)
  | some o => do
    let (err, h) ← makeBranch mem2 h o name isArray
    if err then
      let h ← removeNode h o
      pure (none, h)
    else pure (some o, h)

/-- What a leaf is made of. -/
inductive Leaf where
  | str (s : Option Bytes)
  | flt (v : UInt64)
  | int (v : Int)
  deriving DecidableEq, Repr

/-- `adt_set_str`, `adt_set_flt`, `adt_set_int`. -/
def setLeaf (h : Heap) (r : Ref) (name : Option Bytes) : Leaf → Res Heap
  | .str s => setStr h r name s
  | .flt v => setFlt h r name v
  | .int v => setInt h r name v

/-- parsing.cpp 408-441 `adt_append_str`, `adt_append_flt`, `adt_append_int`. -/
def appendLeaf (lib : Lib) (heap mem : Bool) (h : Heap) (parent : Option Ref) (name : Option Bytes) (v : Leaf) : Res (Option Ref × Heap) := do
  let (o, h) ← alloc lib heap mem h parent
  match o with
  | none => return (none, h)
  | some o => do
    let h ← setLeaf h o name v
    pure (some o, h)

end Verif.Adt
