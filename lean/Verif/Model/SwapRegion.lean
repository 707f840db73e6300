import Verif.Model.CondBlock
import Verif.Model.CStr
/-!
# Putting another implementation in the place of a region (gen_c_library/components/misc.hpp, gen_c_library/c_library.cpp)

The generator of the C library takes out what is between `#pragma region <name>` and `#pragma endregion <name>` and appends something it makes itself.
-/
namespace Verif.Ast

/-- misc.hpp (gen_c_library) 231-244: the entries are passed over until a pragma whose text contains `stop`; the entry behind that one. (`for` advances the entry once more
after `continue_for` is cleared.) -/
def passRegion (lt : Bool) : Nat → Heap → Bytes → Nat → Res Nat
  | 0, _, _, _ => .hang
  | fuel + 1, h, stop, entry =>
    (h.get entry).bind fun e =>
    if e.type = .Preprocess_Pragma then
      (Str.contains lt e.content stop).bind fun found =>
      (advance h entry).bind fun next => if found then .ok next else passRegion lt fuel h stop next
    else (advance h entry).bind fun next => passRegion lt fuel h stop next

/-- misc.hpp (gen_c_library) 218-248 `swap_pragma_region_implementation`: found or not, the heap, and the entry the caller is at then. `gen` is `swap_content`. The two
texts looked for are put together here; the code prints them with `region %s` and `endregion %s` (names of up to 128K bytes; printing is property C36). -/
def swapRegion (lt : Bool) (fuel : Nat) (h : Heap) (name : Bytes) (gen : Heap → Res (Heap × Nat)) (entry new : Nat) : Res (Bool × Heap × Nat) :=
  (h.get entry).bind fun e =>
  (Str.contains lt e.content (b!"region " ++ name)).bind fun found =>
  if found then
    (gen h).bind fun r =>
    (bodyAppend fuel r.1 new r.2).bind fun h =>
    (advance h entry).bind fun entry =>
    (passRegion lt fuel h (b!"endregion " ++ name) entry).bind fun entry =>
    (bodyAppend fuel h new entry).bind fun h => .ok (true, h, entry)
  else .ok (false, h, entry)

/-- c_library.cpp 192, 315-328: the loop over a body; a pragma that begins the region has it exchanged, every other entry is appended to `new`. (The other things this loop
does with particular types are not modelled here; for the conditional blocks see CondBlock.lean.) -/
def swapBody (lt : Bool) : Nat → Bytes → (Heap → Res (Heap × Nat)) → Heap → Nat → Nat → Nat → Res Heap
  | 0, _, _, _, _, _, _ => .hang
  | fuel + 1, name, gen, h, body, new, entry =>
    (atEnd h body entry).bind fun done =>
    if done then .ok h
    else
      (h.get entry).bind fun e =>
      (if e.type = .Preprocess_Pragma then swapRegion lt fuel h name gen entry new else .ok (false, h, entry)).bind fun r =>
      (if r.1 then .ok r.2.1 else bodyAppend fuel r.2.1 new r.2.2).bind fun h =>
      (advance h r.2.2).bind fun entry => swapBody lt fuel name gen h body new entry

end Verif.Ast
