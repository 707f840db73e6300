import Verif.Model.ParserApi
import Verif.Model.TokenFmt
import Verif.Model.Serialize
/-!
# An enum of C++ for C: gen_c_library/components/misc.hpp 6-31

C has no underlying types: the generator puts a macro that takes the type where it was, and gives the type the name of the enum.
-/
namespace Verif.EnumToC
open Ast

/-- misc.hpp (gen_c_library) 15: the template of the name, for an enum with an underlying type. -/
def typedefTemplate : Bytes := b!"typedef <type> <name>;"

/-- misc.hpp (gen_c_library) 20: the same, without underlying type. -/
def plainTemplate : Bytes := b!"typedef enum <type> <name>;"

/-- misc.hpp (gen_c_library) 25: the template of the macro. It is `#undef`ined around the function, so it is not expanded. -/
def macroTemplate : Bytes := b!"enum_underlying(<type>)"

/-- misc.hpp (gen_c_library) 11-21: the name for the type. `lt` and `null` are as in Model/Serialize.lean. -/
def typedefCode (crit : Nat → Nat) (fuel : Nat) (lt : Bool) (null : Nat → Bool) (tbl : HTable Bytes) (w : Parse.World) (n : Node) : Res (Nat × HTable Bytes × Parse.World) :=
  if n.typ ≠ 0 then do
    let type ← Ser.ser { h := w.heap, lt := lt, nullStr := null } fuel .typename n.typ []
    let (text, tbl) ← TokenFmt.tokenFmtVa crit Fmt.printfMax tbl [(b!"type" ++ [0], type), (b!"name" ++ [0], n.name)] (typedefTemplate ++ [0])
    let (code, w) ← Parse.parse_typedef w text
    return (code, tbl, w)
  else do
    let (text, tbl) ← TokenFmt.tokenFmtVa crit Fmt.printfMax tbl [(b!"type" ++ [0], n.name), (b!"name" ++ [0], n.name)] (plainTemplate ++ [0])
    let (code, w) ← Parse.parse_typedef w text
    return (code, tbl, w)

/-- misc.hpp (gen_c_library) 23-27: the macro takes the place of the type. -/
def exchange (crit : Nat → Nat) (c : Cfg) (tbl : HTable Bytes) (h : Heap) (q : Nat) (n : Node) : Res (HTable Bytes × Heap) :=
  if n.typ ≠ 0 then do
    let t ← h.get n.typ
    let (text, tbl) ← TokenFmt.tokenFmtVa crit Fmt.printfMax tbl [(b!"type" ++ [0], t.name)] (macroTemplate ++ [0])
    let (code, h) ← untypedStr c h text
    let h ← h.upd q fun n => { n with params := code }
    let h ← h.upd q fun n => { n with typ := 0 }
    return (tbl, h)
  else .ok (tbl, h)

/-- misc.hpp (gen_c_library) 6-31 `convert_cpp_enum_to_c`: the enum `q`, and the body `b`. -/
def convert (crit : Nat → Nat) (fuel : Nat) (lt : Bool) (null : Nat → Bool) (tbl : HTable Bytes) (w : Parse.World) (q b : Nat) : Res (HTable Bytes × Parse.World) := do
  let n ← w.heap.get q
  let (code, tbl, w) ← typedefCode crit fuel lt null tbl w n
  let (tbl, h) ← exchange crit w.env.cfg tbl w.heap q n
  let h ← bodyAppend fuel h b q
  let h ← bodyAppend fuel h b code
  return (tbl, { w with heap := h })

end Verif.EnumToC
