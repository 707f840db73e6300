import Verif.Model.Res
import Verif.Model.Enums
/-!
# The AST heap

Models `struct AST` (components/ast.hpp 341-440) and the `Code` operations of components/inlines.hpp and components/ast.cpp.

* A `Code` is a pointer; here a number, 0 being the null pointer. A heap maps the numbers in `[1, next)` to nodes.
* `make_code` (interface.cpp 397-424) is "a zeroed node never handed out before"; that the pool code really does that is C23.
* Union members that are used for one kind of node only are separate fields (`Content`, `ArrSpecs` and the seven `Code` slots
  overlay each other in C++; each kind of node uses one of these views). The slots that are shared by different views *of one
  and the same node* stay shared: `front` is `Prev`/`Front`/`Last`, `back` is `Next`/`Back`, `num` is `NumEntries`/`Op`/
  `ParentAccess`/`IsFunction`/`VarParenthesizedInit`.
* `Token` (debug information) is not modelled. `s32` overflow of `NumEntries` (2^31 entries) is not modelled.
* Interned strings are their bytes (C14).
-/
namespace Verif.Ast

/-- ast.hpp 324-336 `AST_ArrSpecs_Cap`: (128 - 8 - 16 - 16 - 8 - 8 - 4 - 4 - 4) / 4 - 1 on a 64-bit target. -/
def specsCap : Nat := (128 - 8 - 16 - 8 * 2 - 8 - 8 - 4 - 4 - 4) / 4 - 1

/-- ast.hpp 341-440 `struct AST`. -/
structure Node where
  inlineCmt : Nat := 0
  attributes : Nat := 0
  specs : Nat := 0
  /-- `InitializerList`, `ParentType`, `ReturnType`, `UnderlyingType`, `ValueType` -/
  typ : Nat := 0
  /-- `Macro`, `BitfieldSize`, `Params`, `UnderlyingTypeMacro` -/
  params : Nat := 0
  /-- `ArrExpr`, `Body`, `Declaration`, `Value` -/
  body : Nat := 0
  /-- `NextVar`, `SuffixSpecs`, `PostNameMacro` -/
  suffix : Nat := 0
  content : Bytes := []
  arrSpecs : List Specifier := List.replicate specsCap .Invalid
  name : Bytes := []
  /-- `Prev`, `Front`, `Last` -/
  front : Nat := 0
  /-- `Next`, `Back` -/
  back : Nat := 0
  parent : Nat := 0
  type : CodeType := .Invalid
  moduleFlags : Nat := 0
  /-- `NumEntries`, `Op`, `ParentAccess`, `IsFunction`, `VarParenthesizedInit` -/
  num : Int := 0
  isParamPack : Bool := false
  typeTag : Nat := 0
  deriving DecidableEq, Repr

/-- The nodes handed out so far. -/
structure Heap where
  next : Nat
  cell : Nat → Node

namespace Heap

/-- `p` points to a node. -/
def Valid (h : Heap) (p : Nat) : Prop := 0 < p ∧ p < h.next

instance (h : Heap) (p : Nat) : Decidable (h.Valid p) := inferInstanceAs (Decidable (_ ∧ _))

/-- `*p`. -/
def get (h : Heap) (p : Nat) : Res Node := if h.Valid p then .ok (h.cell p) else .ub

/-- Write to node `p` through the pointer. -/
def upd (h : Heap) (p : Nat) (f : Node → Node) : Res Heap :=
  if h.Valid p then .ok { h with cell := fun q => if q = p then f (h.cell p) else h.cell q } else .ub

/-- interface.cpp 397-424 `make_code` (see C23). -/
def make (h : Heap) : Nat × Heap :=
  (h.next, { next := h.next + 1, cell := fun q => if q = h.next then {} else h.cell q })

/-- The heap in which nothing has been allocated. -/
def empty : Heap := { next := 1, cell := fun _ => {} }

end Heap

/-- ast.cpp 364-374 `code_duplicate`: a fresh node with the bytes of `self`, parent cleared. -/
def duplicate (h : Heap) (self : Nat) : Res (Nat × Heap) :=
  let (r, h) := h.make
  (h.get self).bind fun n =>
  (h.upd r fun _ => { n with parent := 0 }).bind fun h => .ok (r, h)

/-- gen/ast_inlines.hpp 10-19 `Code::operator=`: the pointer the assigned variable holds afterwards, and the heap. The copy made
for a code that has a parent is lost: the last line stores the original pointer in any case. -/
def codeAssign (h : Heap) (other : Nat) : Res (Nat × Heap) :=
  if other = 0 then .ok (0, h) else
  (h.get other).bind fun o =>
  if o.parent ≠ 0 then (duplicate h other).bind fun (_, h) => .ok (other, h) else .ok (other, h)

/-- inlines.hpp 318-344 `code_append`. -/
def append (h : Heap) (self other : Nat) : Res Heap :=
  (Res.assert (self ≠ 0)).bind fun _ =>
  (Res.assert (other ≠ 0)).bind fun _ =>
  (Res.assert (self ≠ other)).bind fun _ =>
  (h.get other).bind fun o =>
  (if o.parent ≠ 0 then duplicate h other else .ok (other, h)).bind fun (other, h) =>
  (h.upd other fun n => { n with parent := self }).bind fun h =>
  (h.get self).bind fun s =>
  if s.front = 0 then
    h.upd self fun n => { n with front := other, back := other, num := n.num + 1 }
  else
    let current := s.back
    (h.upd current fun n => { n with back := other }).bind fun h =>
    (h.upd other fun n => { n with front := current }).bind fun h =>
    h.upd self fun n => { n with back := other, num := n.num + 1 }

/-- inlines.hpp 346-362 `code_is_body`, on the type. -/
def isBodyType : CodeType → Bool
  | .Enum_Body | .Class_Body | .Union_Body | .Export_Body | .Global_Body | .Struct_Body | .Function_Body | .Namespace_Body
  | .Extern_Linkage_Body => true
  | _ => false

/-- inlines.hpp 435-446 `body_append_body`, with the loop of lines 442-444 as a parameter. -/
def bodyAppendBodyWith (loop : Heap → Nat → Nat → Nat → Res Heap) (h : Heap) (self body : Nat) : Res Heap :=
  (Res.assert (self ≠ 0)).bind fun _ =>
  (Res.assert (body ≠ 0)).bind fun _ =>
  (Res.assert (self ≠ body)).bind fun _ =>
  (h.get body).bind fun b => loop h self body b.front

/-- inlines.hpp 422-433 `body_append`, with the loop of `body_append_body` as a parameter. -/
def bodyAppendWith (loop : Heap → Nat → Nat → Nat → Res Heap) (h : Heap) (self other : Nat) : Res Heap :=
  (Res.assert (self ≠ 0)).bind fun _ =>
  (Res.assert (other ≠ 0)).bind fun _ =>
  (h.get other).bind fun o =>
  if isBodyType o.type then bodyAppendBodyWith loop h self other
  else append h self other

/-- inlines.hpp 442-465: the loop from `begin_CodeBody` to `end_CodeBody` by `next_CodeBody`. `end_CodeBody` reads
`body->Back->Next` on every turn. `fuel` bounds the number of entries visited along the way; running out is `hang`. -/
def bodyAppendLoop : Nat → Heap → Nat → Nat → Nat → Res Heap
  | 0, _, _, _, _ => .hang
  | fuel + 1, h, self, body, entry =>
    (h.get body).bind fun b =>
    (h.get b.back).bind fun last =>
    if entry = last.back then .ok h
    else
      (bodyAppendWith (bodyAppendLoop fuel) h self entry).bind fun h =>
      (Res.assert (entry ≠ 0)).bind fun _ =>
      (h.get entry).bind fun e => bodyAppendLoop fuel h self body e.back

/-- inlines.hpp 422-433 `body_append`. -/
def bodyAppend (fuel : Nat) (h : Heap) (self other : Nat) : Res Heap := bodyAppendWith (bodyAppendLoop fuel) h self other

/-- inlines.hpp 435-446 `body_append_body`. -/
def bodyAppendBody (fuel : Nat) (h : Heap) (self body : Nat) : Res Heap := bodyAppendBodyWith (bodyAppendLoop fuel) h self body

/-- inlines.hpp 447-465: the entries visited by `for ( Code entry : body )`, from `entry` on. -/
def iterBody (fuel : Nat) (h : Heap) (body entry : Nat) : Res (List Nat) :=
  match fuel with
  | 0 => .hang
  | fuel + 1 =>
    (h.get body).bind fun b =>
    (h.get b.back).bind fun last =>
    if entry = last.back then .ok []
    else (h.get entry).bind fun e => (iterBody fuel h body e.back).bind fun l => .ok (entry :: l)

/-- The first `n` nodes reached from `p` through `Next`: what `body_to_strbuilder` (inlines.hpp 34-47), `code_is_equal` and the
other counted loops visit. `Code::operator++` stays on null (inlines.hpp 397-405); the entry itself is dereferenced by the
visitor. -/
def walk (h : Heap) : Nat → Nat → Res (List Nat)
  | 0, _ => .ok []
  | n + 1, p => (h.get p).bind fun e => (walk h n e.back).bind fun l => .ok (p :: l)

/-- The entries a counted loop over the body visits. -/
def entries (h : Heap) (body : Nat) : Res (List Nat) := (h.get body).bind fun b => walk h b.num.toNat b.front

/-- inlines.hpp 364-379 `code_entry`: what the returned slot holds. `idx` is unsigned, so the loop ends at `idx == 0` only;
following a null `Next` is an access through null. -/
def codeEntry (h : Heap) (self : Nat) (idx : Nat) : Res Nat :=
  (Res.assert (self ≠ 0)).bind fun _ =>
  (h.get self).bind fun s => go idx s.front
where
  go : Nat → Nat → Res Nat
    | 0, slot => .ok slot
    | idx + 1, slot => (h.get slot).bind fun e => go idx e.back

/-- inlines.hpp 492-517 `params_append`. -/
def paramsAppend (h : Heap) (appendee other : Nat) : Res Heap :=
  (Res.assert (appendee ≠ 0)).bind fun _ =>
  (Res.assert (other ≠ 0)).bind fun _ =>
  (Res.assert (appendee ≠ other)).bind fun _ =>
  (h.get other).bind fun o =>
  (if o.parent ≠ 0 then duplicate h other else .ok (other, h)).bind fun (entry, h) =>
  (h.upd entry fun n => { n with parent := appendee }).bind fun h =>
  (h.get appendee).bind fun s =>
  if s.front = 0 then
    h.upd appendee fun n => { n with front := entry, back := entry, num := n.num + 1 }
  else
    (h.upd s.front fun n => { n with back := entry }).bind fun h =>
    h.upd appendee fun n => { n with front := entry, num := n.num + 1 }

/-- inlines.hpp 518-533 `params_get`: the test of the pointer after `++param` is the wrong way round. `++param` dereferences
the node. A negative or zero `idx` counts down "forever". -/
def paramsGet (h : Heap) (self : Nat) (idx : Nat) : Res Nat :=
  (Res.assert (self ≠ 0)).bind fun _ =>
  (h.get self).bind fun s =>
  if s.back ≠ 0 then .ok 0 else (h.get s.back).bind fun _ => .ok idx

/-- inlines.hpp 534-566: iteration of a parameter list: the head, then `Next` until null. -/
def iterParams (fuel : Nat) (h : Heap) (p : Nat) : Res (List Nat) :=
  match fuel with
  | 0 => .hang
  | fuel + 1 => if p = 0 then .ok [] else (h.get p).bind fun e => (iterParams fuel h e.back).bind fun l => .ok (p :: l)

/-- inlines.hpp 590-607 `specifiers_append`; `fatal` says whether `log_failure` is `GEN_FATAL` (types.hpp 29-33). -/
def specifiersAppend (fatal : Bool) (h : Heap) (self : Nat) (spec : Specifier) : Res (Bool × Heap) :=
  if self = 0 then (if fatal then .stop else .ok (false, h)) else
  (h.get self).bind fun n =>
  if n.num = specsCap then (if fatal then .stop else .ok (false, h)) else
  if n.num < 0 ∨ n.arrSpecs.length ≤ n.num.toNat then .ub else
  (h.upd self fun n => { n with arrSpecs := n.arrSpecs.set n.num.toNat spec, num := n.num + 1 }).bind fun h => .ok (true, h)

/-- inlines.hpp 612-616, 623-627: the scan of `specifiers_has` and `specifiers_index_of`. -/
def specifiersScan (arr : List Specifier) (num : Int) (spec : Specifier) (idx : Nat) : Res Int :=
  if _h : (idx : Int) < num then
    (Res.ofOption arr[idx]?).bind fun s => if s = spec then .ok idx else specifiersScan arr num spec (idx + 1)
  else .ok (-1)
termination_by (num - idx).toNat

/-- inlines.hpp 608-617 `specifiers_has`. -/
def specifiersHas (h : Heap) (self : Nat) (spec : Specifier) : Res Bool :=
  (Res.assert (self ≠ 0)).bind fun _ =>
  (h.get self).bind fun n => (specifiersScan n.arrSpecs n.num spec 0).bind fun i => .ok (decide (0 ≤ i))

/-- inlines.hpp 618-627 `specifiers_index_of`. -/
def specifiersIndexOf (h : Heap) (self : Nat) (spec : Specifier) : Res Int :=
  (Res.assert (self ≠ 0)).bind fun _ =>
  (h.get self).bind fun n => specifiersScan n.arrSpecs n.num spec 0

/-- inlines.hpp 647-664: the loop of `specifiers_remove`; the array and `result` at its end. -/
def specifiersRemoveLoop (num : Nat) (rm : Specifier) (arr : List Specifier) (curr next : Nat) (result : Int) :
    Res (List Specifier × Int) :=
  if _h : next < num then
    (Res.ofOption arr[next]?).bind fun spec =>
    if spec = rm then
      if num ≤ next + 1 then .ok (arr, next)
      else (Res.ofOption arr[next + 1]?).bind fun spec =>
        specifiersRemoveLoop num rm (arr.set curr spec) (curr + 1) (next + 2) next
    else specifiersRemoveLoop num rm (arr.set curr spec) (curr + 1) (next + 1) result
  else .ok (arr, result)
termination_by num - next

/-- inlines.hpp 628-668 `specifiers_remove`. -/
def specifiersRemove (fatal : Bool) (h : Heap) (self : Nat) (rm : Specifier) : Res (Int × Heap) :=
  if self = 0 then (if fatal then .stop else .ok (-1, h)) else
  (h.get self).bind fun n =>
  if n.num = specsCap then (if fatal then .stop else .ok (-1, h)) else
  (specifiersRemoveLoop n.num.toNat rm n.arrSpecs 0 0 (-1)).bind fun (arr, result) =>
  (h.upd self fun n => { n with arrSpecs := arr, num := if result > -1 then n.num - 1 else n.num }).bind fun h =>
  .ok (result, h)

/-- inlines.hpp 669-686: what `for ( Specifier spec : specifiers )` visits. -/
def iterSpecifiers (h : Heap) (self : Nat) : Res (List Specifier) :=
  (h.get self).bind fun n =>
  if n.arrSpecs.length < n.num.toNat then .ub else .ok (n.arrSpecs.take n.num.toNat)

/-- inlines.hpp 712-729: the types `def_body` accepts (`CT_Extern_Linkage`, not `CT_Extern_Linkage_Body`, as in the source). -/
def defBodyAllowed : CodeType → Bool
  | .Class_Body | .Enum_Body | .Export_Body | .Extern_Linkage | .Function_Body | .Global_Body | .Namespace_Body | .Struct_Body
  | .Union_Body => true
  | _ => false

/-- inlines.hpp 711-735 `def_body`; `none` is the logged failure. -/
def defBody (h : Heap) (t : CodeType) : Res (Option (Nat × Heap)) :=
  if defBodyAllowed t then
    let (r, h) := h.make
    (h.upd r fun n => { n with type := t }).bind fun h => .ok (some (r, h))
  else .ok none

end Verif.Ast
