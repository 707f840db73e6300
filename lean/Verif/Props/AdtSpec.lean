import Verif.Model.Adt
/-!
# What a data tree is

A tree is a leaf with a name and a value, or a branch (object or array) with a name and a list of trees. `Shows` says when a node of the heap stands for a tree,
and which blocks its arrays are in.
-/
namespace Verif.Adt

/-- A data tree. -/
inductive Tree where
  | leaf (name : Option Bytes) (v : Leaf)
  | branch (name : Option Bytes) (isArray : Bool) (kids : List Tree)

/-- Its name. -/
def Tree.name : Tree → Option Bytes
  | .leaf n _ => n
  | .branch n _ _ => n

/-- A place in a tree: the index of a child, of a child of it, and so on. -/
abbrev Path := List Nat

/-- The tree at a place. -/
def Tree.at_ : Path → Tree → Option Tree
  | [], t => some t
  | i :: p, .branch _ _ kids => kids[i]?.bind (Tree.at_ p)
  | _ :: _, .leaf _ _ => none

/-- The tree with another one put at a place, `g` of what was there; `none` if there is no such place. -/
def Tree.modify (g : Tree → Option Tree) : Path → Tree → Option Tree
  | [], t => g t
  | i :: p, .branch name arr kids => kids[i]?.bind fun k => (k.modify g p).map fun k' => .branch name arr (kids.set i k')
  | _ :: _, .leaf _ _ => none

/-- A branch gets one more child, behind the others. -/
def Tree.push (new : Tree) : Tree → Option Tree
  | .branch name arr kids => some (.branch name arr (kids ++ [new]))
  | .leaf _ _ => none

/-- A node holds the value of a leaf. -/
def Leaf.Is (n : Node) : Leaf → Prop
  | .str s => n.num = { type := .string } ∧ n.string = s
  | .flt v => n.num = { type := .real, real := v }
  | .int v => n.num = { type := .integer, integer := v }

/-- An array as the library keeps it. -/
def Arr.Fine (a : Arr Node) : Prop := a.cells.length = a.capacity ∧ a.num ≤ a.capacity

mutual
/-- The node `n` stands for the tree; `f` are the blocks of the arrays of the tree. -/
def Shows (h : Heap) : Tree → Node → List Nat → Prop
  | .leaf name v, n, f => n.name = name ∧ v.Is n ∧ f = []
  | .branch name arr kids, n, f => n.name = name ∧ n.num.type = (if arr then .array else .object) ∧
      ∃ b a fs, n.nodes = some b ∧ h.blocks[b]? = some (some a) ∧ Arr.Fine a ∧ ShowsAll h kids (a.cells.take a.num) fs ∧ f = b :: fs
/-- The cells stand for the trees. -/
def ShowsAll (h : Heap) : List Tree → List (Option Node) → List Nat → Prop
  | [], cs, f => cs = [] ∧ f = []
  | t :: ts, cs, f => ∃ n cs' f1 f2, cs = some n :: cs' ∧ Shows h t n f1 ∧ ShowsAll h ts cs' f2 ∧ f = f1 ++ f2
end

/-- `&node->nodes[i]`, for a node that has as many. -/
def child (h : Heap) (r : Ref) (i : Nat) : Option Ref :=
  match h.read r with
  | .ok n => match n.nodes with
    | some b => match h.block b with
      | .ok a => if i < a.num then some (.cell b i) else none
      | _ => none
    | none => none
  | _ => none

/-- The pointer to the node at a place below `r`. -/
def reach (h : Heap) : Ref → Path → Option Ref
  | r, [] => some r
  | r, i :: p => (child h r i).bind fun r' => reach h r' p

/-- The variable or array cell `r` holds a whole tree: its arrays are all different, and `r` is in none of them. -/
def Holds (h : Heap) (r : Ref) (t : Tree) (f : List Nat) : Prop :=
  ∃ n, h.read r = .ok n ∧ Shows h t n f ∧ f.Nodup ∧ ∀ b i, r = .cell b i → b ∉ f

/-- A tree that another root holds: its blocks are not those of `f`, and neither root is in a block of the other tree. -/
def Apart (r : Ref) (f : List Nat) (r2 : Ref) (f2 : List Nat) : Prop :=
  (∀ b ∈ f2, b ∉ f) ∧ (∀ b i, r = .cell b i → b ∉ f2) ∧ (∀ b i, r2 = .cell b i → b ∉ f ∧ ∀ j, r ≠ .cell b j) ∧ r ≠ r2

/-! ### Building a tree -/

/-- What a user does to a tree, with a pointer to one of its nodes: append a leaf, append a branch, or make the node a leaf. -/
inductive Edit where
  | leaf (p : Path) (name : Option Bytes) (v : Leaf)
  | branch (p : Path) (name : Option Bytes) (isArray : Bool)
  | set (p : Path) (name : Option Bytes) (v : Leaf)

/-- The tree afterwards; `none` if there is no such place, or if something is appended to a leaf. -/
def Edit.tree : Edit → Tree → Option Tree
  | .leaf p name v, t => t.modify (Tree.push (.leaf name v)) p
  | .branch p name arr, t => t.modify (Tree.push (.branch name arr [])) p
  | .set p name v, t => t.modify (fun _ => some (.leaf name v)) p

/-- The place of the node that the call returns. -/
def Edit.result (t : Tree) : Edit → Path
  | .leaf p _ _ | .branch p _ _ => match t.at_ p with
    | some (.branch _ _ kids) => p ++ [kids.length]
    | _ => p
  | .set p _ _ => p

/-- The call: `adt_append_str`, `adt_append_flt`, `adt_append_int`; `adt_append_obj`, `adt_append_arr`; `adt_set_str`, `adt_set_flt`, `adt_set_int`. -/
def Edit.run (lib : Lib) (heap : Bool) (root : Ref) (h : Heap) : Edit → Res (Option Ref × Heap)
  | .leaf p name v => (Res.ofOption (reach h root p)).bind fun r => appendLeaf lib heap true h (some r) name v
  | .branch p name arr => (Res.ofOption (reach h root p)).bind fun r => appendBranch lib heap true true h (some r) name arr
  | .set p name v => (Res.ofOption (reach h root p)).bind fun r => (setLeaf h r name v).bind fun h' => .ok (some r, h')

/-- One edit after the other. -/
def editsTree : List Edit → Tree → Option Tree
  | [], t => some t
  | e :: es, t => (e.tree t).bind (editsTree es)

def editsRun (lib : Lib) (heap : Bool) (root : Ref) : List Edit → Heap → Res Heap
  | [], h => .ok h
  | e :: es, h => (e.run lib heap root h).bind fun r => editsRun lib heap root es r.2

/-! ### Searching -/

mutual
/-- The place of the first node with a name: among the children of an object, and then, if wanted, below each of them in turn. Nothing is found in an array. -/
def Tree.find (name : Bytes) (deep : Bool) : Tree → Option Path
  | .leaf _ _ => none
  | .branch _ true _ => none
  | .branch _ false kids =>
    match kids.findIdx? (fun k => k.name = some name) with
    | some i => some [i]
    | none => if deep then findBelow name 0 kids else none
/-- Below the trees of a list, the first of which is the `i`-th. -/
def findBelow (name : Bytes) (i : Nat) : List Tree → Option Path
  | [] => none
  | t :: ts => match t.find name true with
    | some p => some (i :: p)
    | none => findBelow name (i + 1) ts
end

mutual
/-- Every child of an object has a name, which is a C string. -/
def Tree.Named : Tree → Prop
  | .leaf _ _ => True
  | .branch _ arr kids => (arr = false → AllNamed kids) ∧ AllKids kids
/-- The trees have names. -/
def AllNamed : List Tree → Prop
  | [] => True
  | t :: ts => (∃ s, t.name = some s ∧ (0 : UInt8) ∉ s) ∧ AllNamed ts
/-- In every tree of the list, the children of objects have names. -/
def AllKids : List Tree → Prop
  | [] => True
  | t :: ts => t.Named ∧ AllKids ts
end

mutual
/-- The number of levels of a tree. -/
def Tree.depth : Tree → Nat
  | .leaf _ _ => 1
  | .branch _ _ kids => depths kids + 1
def depths : List Tree → Nat
  | [] => 0
  | t :: ts => max t.depth (depths ts)
end

/-! ### Queries -/

/-- A decimal number as text. -/
def intText (v : Int) : Bytes := (if v < 0 then b!"-" else []) ++ (Nat.toDigits 10 v.natAbs).map fun c => UInt8.ofNat c.toNat

/-- A step of a query: the name of a child, the index of an element, a child with a value, or an element with a value. -/
inductive Seg where
  | name (s : Bytes)
  | index (i : Nat)
  | field (s v : Bytes)
  | value (v : Bytes)

/-- How it is written. -/
def Seg.text : Seg → Bytes
  | .name s => s
  | .index i => intText i
  | .field s v => b!"[" ++ s ++ b!"=" ++ v ++ b!"]"
  | .value v => b!"[" ++ v ++ b!"]"

/-- The characters that tell the steps apart are not part of names and values, and a step has fewer than 131071 of them. -/
def Seg.Ok : Seg → Prop
  | .name s => s ≠ [] ∧ s.head? ≠ some 91 ∧ (0 : UInt8) ∉ s ∧ (47 : UInt8) ∉ s ∧ s.length + 1 < 131072
  | .index i => i < 2 ^ 63
  | .field s v => (∀ c ∈ s, c ≠ 0 ∧ c ≠ 47 ∧ c ≠ 61 ∧ c ≠ 93) ∧ (∀ c ∈ v, c ≠ 0 ∧ c ≠ 47 ∧ c ≠ 93) ∧ s.length + v.length + 4 < 131072
  | .value v => (∀ c ∈ v, c ≠ 0 ∧ c ≠ 47 ∧ c ≠ 61 ∧ c ≠ 93) ∧ v.length + 3 < 131072

/-- A leaf has a value: a string is compared as it is, an integer by its decimal digits, and a real number by the text `real` of it. -/
def Tree.hasValue (real : UInt64 → Bytes) (value : Bytes) : Tree → Bool
  | .leaf _ (.str s) => s = some value
  | .leaf _ (.int v) => intText v = value
  | .leaf _ (.flt v) => real v = value
  | .branch .. => false

/-- One of the children has a name and a value. -/
def hasField (real : UInt64 → Bytes) (s v : Bytes) (kids : List Tree) : Bool := kids.any fun k => k.name = some s && k.hasValue real v

/-- The tree is an object one of whose children has a name and a value. -/
def Tree.hasField (real : UInt64 → Bytes) (s v : Bytes) : Tree → Bool
  | .branch _ false kids => Adt.hasField real s v kids
  | _ => false

/-- The step can be taken from the tree: names are of objects, indices and values of arrays, fields of both. -/
def Seg.Fits : Seg → Tree → Prop
  | .name _, .branch _ arr _ => arr = false
  | .index _, .branch _ arr _ => arr = true
  | .value _, .branch _ arr _ => arr = true
  | .field _ _, .branch _ _ _ => True
  | _, .leaf _ _ => False

/-- Where the step leads: to the first child or element that has what is asked for; an object asked for a field leads to itself. -/
def Seg.to (real : UInt64 → Bytes) : Seg → List Tree → Bool → Option Path
  | .name s, kids, _ => (kids.findIdx? (fun k => k.name = some s)).map fun i => [i]
  | .index i, kids, _ => if i < kids.length then some [i] else none
  | .value v, kids, _ => (kids.findIdx? (fun k => k.hasValue real v)).map fun i => [i]
  | .field s v, kids, true => (kids.findIdx? (fun k => k.hasField real s v)).map fun i => [i]
  | .field s v, kids, false => if hasField real s v kids then some [] else none

/-- Where a query leads, step by step; nowhere if a step leads nowhere or a leaf is in the way. -/
inductive Walks (real : UInt64 → Bytes) : List Seg → Tree → Option Path → Prop
  | done (t) : Walks real [] t (some [])
  | leaf (s ss name v) : Walks real (s :: ss) (.leaf name v) none
  | nowhere (s ss name arr kids) : s.Fits (.branch name arr kids) → s.to real kids arr = none → Walks real (s :: ss) (.branch name arr kids) none
  | on (s ss name arr kids p k q) : s.Fits (.branch name arr kids) → s.to real kids arr = some p → (Tree.branch name arr kids).at_ p = some k → Walks real ss k q →
      Walks real (s :: ss) (.branch name arr kids) (q.map (p ++ ·))

/-- The steps with slashes between them. -/
def joined : List Seg → Bytes
  | [] => []
  | [s] => s.text
  | s :: ss => s.text ++ b!"/" ++ joined ss

/-- The values of the leaves are what the comparison can handle: strings are C strings, integers are not the least one, and `real` is the text of a real number. -/
def Plain (F : F64) (lt : Bool) (real : UInt64 → Bytes) (t : Tree) : Prop := ∀ p name v, t.at_ p = some (.leaf name v) → match v with
  | .str (some s) => (0 : UInt8) ∉ s
  | .str none => True
  | .int v => -(2 ^ 63) < v ∧ v < 2 ^ 63
  | .flt v => (∃ ps, printNumber F lt { type := .real, real := v } = .ok (some ps) ∧ ps.flatten = real v) ∧ (0 : UInt8) ∉ real v ∧ (real v).length < 4096

end Verif.Adt
