import Verif.Model.Upfront
/-!
# `def_comment`

Models interface.upfront.cpp 431-474. `content` is the bytes of the string view and `rest` the bytes that follow it in memory:
the function looks at them. Allocation of the string builder does not fail here.
-/
namespace Verif.Ast

/-- interface.upfront.cpp 447-453: the inner loop; `mem` is the memory from `scanner + length` on, `d` is `end - scanner` and
`next` is `next - scanner`. The result is `length` after the loop. -/
def cmtScan (d : Nat) : Bytes → Nat → Nat → Res Nat
  | mem, next, length =>
    if next = d then .ok length
    else match mem with
      | [] => .ub
      | x :: mem => if x = 10 then .ok length else cmtScan d mem length (length + 1)

/-- interface.upfront.cpp 456: the text `strbuilder_append_fmt( "//%.*s", length, scanner )` appends (strings.hpp 491-500: a
buffer of `GEN_PRINTF_MAXLEN - 1` = 131071 bytes). -/
def cmtLine (mem : Bytes) (length : Nat) : Res Bytes :=
  let t := b!"//" ++ cText (mem.take length)
  if mem.length < length ∧ 0 ∉ mem then .ub
  else if t.length + 1 < 131071 then .ok t else .ub

/-- interface.upfront.cpp 444-459: the outer loop; `mem` is the memory from `scanner` on, `d` is `end - scanner`. -/
def cmtLoop : Nat → Bytes → Nat → Bytes → Res Bytes
  | 0, _, _, _ => .hang
  | fuel + 1, mem, d, acc =>
    (cmtScan d mem 0 0).bind fun n =>
    (cmtLine mem (n + 1)).bind fun t =>
    if n + 1 ≤ d then cmtLoop fuel (mem.drop (n + 1)) (d - (n + 1)) (acc ++ t) else .ok (acc ++ t)

/-- interface.upfront.cpp 431-474 `def_comment`. -/
def defComment (fuel : Nat) (c : Cfg) (h : Heap) (content rest : Bytes) : Out :=
  guardName c h content <|
  (cmtLoop fuel (content ++ rest) content.length []).bind fun t =>
  let t := if t.getLast? = some 10 then t else t ++ [10]
  finish h.make.2 h.next { type := .Comment, name := t, content := t }

end Verif.Ast
