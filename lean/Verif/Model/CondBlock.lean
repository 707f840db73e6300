import Verif.Model.Ast
/-!
# Leaving out conditional blocks (gen_c_library/components/misc.hpp, gen_c_library/c_library.cpp)

The generator of the C library walks through parsed bodies and leaves out the blocks `#if <condition> … #endif` of certain conditions.
-/
namespace Verif.Ast

/-- inlines.hpp 454-458 and ast.hpp 281: `entry != body.end()`, negated. -/
def atEnd (h : Heap) (body entry : Nat) : Res Bool :=
  (h.get body).bind fun b =>
  (h.get b.back).bind fun last => .ok (decide (entry = last.back))

/-- inlines.hpp 405-411 `++ entry`. -/
def advance (h : Heap) (entry : Nat) : Res Nat := if entry = 0 then .ok 0 else (h.get entry).bind fun e => .ok e.back

/-- misc.hpp (gen_c_library) 53-60: the entries up to the next `#endif` are appended. -/
def copyElse : Nat → Heap → Nat → Nat → Nat → Res (Heap × Nat)
  | 0, _, _, _, _ => .hang
  | fuel + 1, h, body, new, entry =>
    (atEnd h body entry).bind fun done =>
    if done then .ok (h, entry)
    else
      (h.get entry).bind fun e =>
      if e.type = .Preprocess_EndIf then .ok (h, entry)
      else
        (bodyAppend fuel h new entry).bind fun h =>
        (advance h entry).bind fun entry => copyElse fuel h body new entry

/-- misc.hpp (gen_c_library) 42-75: the loop over the block. -/
def skipBlock : Nat → Heap → Nat → Nat → Int → Nat → Res (Heap × Nat)
  | 0, _, _, _, _, _ => .hang
  | fuel + 1, h, body, new, depth, entry =>
    (atEnd h body entry).bind fun done =>
    if done then .ok (h, entry)
    else
      (h.get entry).bind fun e =>
      match e.type with
      | .Preprocess_If | .Preprocess_IfDef | .Preprocess_IfNotDef => (advance h entry).bind fun entry => skipBlock fuel h body new (depth + 1) entry
      | .Preprocess_Else =>
        (advance h entry).bind fun entry =>
        if depth = 1 then (copyElse fuel h body new entry).bind fun r => skipBlock fuel r.1 body new depth r.2
        else skipBlock fuel h body new depth entry
      | .Preprocess_EndIf =>
        if depth - 1 = 0 then .ok (h, entry)
        else (advance h entry).bind fun entry => skipBlock fuel h body new (depth - 1) entry
      | _ => (advance h entry).bind fun entry => skipBlock fuel h body new depth entry

/-- misc.hpp (gen_c_library) 33-79 `ignore_preprocess_cond_block`: found or not, the heap, and the entry the caller is at then. -/
def ignoreCond (fuel : Nat) (h : Heap) (sig : Bytes) (entry body new : Nat) : Res (Bool × Heap × Nat) :=
  (h.get entry).bind fun e =>
  if e.content = sig then (skipBlock fuel h body new 0 entry).bind fun r => .ok (true, r)
  else .ok (false, h, entry)

/-- c_library.cpp 1224-1231 and the like: one condition after the other, until a block is found. A try is a condition and the two bodies passed along. -/
def tryAll (fuel : Nat) (h : Heap) (entry : Nat) : List (Bytes × Nat × Nat) → Res (Bool × Heap × Nat)
  | [] => .ok (false, h, entry)
  | (sig, body, new) :: l =>
    (ignoreCond fuel h sig entry body new).bind fun r =>
    if r.1 then .ok r else tryAll fuel r.2.1 r.2.2 l

/-- c_library.cpp 276-292, 299-320, 1219-1256 and the like: the loop over a body. `tries` are the tries for an entry of each type; what is not left out is
appended to `new`. (The other things these loops do with particular types are not modelled.) -/
def filterBody : Nat → (CodeType → List (Bytes × Nat × Nat)) → Heap → Nat → Nat → Nat → Res Heap
  | 0, _, _, _, _, _ => .hang
  | fuel + 1, tries, h, body, new, entry =>
    (atEnd h body entry).bind fun done =>
    if done then .ok h
    else
      (h.get entry).bind fun e =>
      (tryAll fuel h entry (tries e.type)).bind fun r =>
      (if r.1 then .ok r.2.1 else bodyAppend fuel r.2.1 new r.2.2).bind fun h =>
      (advance h r.2.2).bind fun entry => filterBody fuel tries h body new entry

end Verif.Ast
