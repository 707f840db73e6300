import Verif.Model.StrBuilder
import Verif.Model.Printing
import Verif.Model.TokenFmt
import Verif.Model.Upfront
/-!
# Macros that select a function by type (gen_c_library/components/misc.hpp)

C has no overloads: the generator writes a macro with `_Generic` that has a slot for every function it can select.
-/
namespace Verif.Select
open Ast

/-- misc.hpp (gen_c_library) 83 `GenericSelectionOpts`. -/
inductive Opts where
  | plain
  | byRef
  | directType
  deriving DecidableEq

/-- misc.hpp (gen_c_library) 99-111: the template of the first line. -/
def firstTemplate : Opts → Bytes
  | .directType => b!"#define <macro_name>(selector_arg, ...) _Generic( (*(selector_arg*)NULL ), \\\n"
  | _ => b!"#define <macro_name>(selector_arg, ...) _Generic( (selector_arg), \\\n"

/-- misc.hpp (gen_c_library) 118-119: the template of a slot. -/
def slotTemplate : Bytes := b!"GEN_IF_MACRO_DEFINED_INCLUDE_THIS_SLOT( GENERIC_SLOT_<slot>__<macro_name> ) \\\n"

/-- misc.hpp (gen_c_library) 125-142: the end. -/
def lastLine (o : Opts) (oneArg : Bool) : Bytes :=
  if oneArg = false then
    match o with
    | .byRef => b!")\\\nGEN_RESOLVED_FUNCTION_CALL( & selector_arg, __VA_ARGS__ )"
    | .directType => b!")\\\nGEN_RESOLVED_FUNCTION_CALL( __VA_ARGS__ )"
    | .plain => b!")\\\nGEN_RESOLVED_FUNCTION_CALL( selector_arg, __VA_ARGS__ )"
  else
    match o with
    | .byRef => b!")\\\nGEN_RESOLVED_FUNCTION_CALL( & selector_arg )"
    | .directType => b!")\\\nGEN_RESOLVED_FUNCTION_CALL()"
    | .plain => b!")\\\nGEN_RESOLVED_FUNCTION_CALL( selector_arg )"

/-- misc.hpp (gen_c_library) 114-121: the slots, from number `slot` on, `left` of them. The buffer of `strbuilder_fmt_buf` is taken to be zero: what it holds behind the text is not
read. With `2 ^ 31 - 1` slots the counter of the source runs over; the model does not. -/
def slots (lt : Bool) (crit : Nat → Nat) (name : Bytes) : Nat → Nat → HTable Bytes → SB → Res (HTable Bytes × SB)
  | 0, _, tbl, sb => .ok (tbl, sb)
  | left + 1, slot, tbl, sb => do
    let num ← Fmt.fmtBuf lt (List.replicate Fmt.printfMax 0) (b!"%d" ++ [0]) [.int slot]
    let num ← SB.readN num.data 0 num.len
    let (text, tbl) ← TokenFmt.tokenFmtVa crit Fmt.printfMax tbl [(b!"macro_name" ++ [0], name), (b!"slot" ++ [0], num)] (slotTemplate ++ [0])
    let (_, sb) ← sb.appendStr text
    slots lt crit name left (slot + 1) tbl sb

/-- misc.hpp (gen_c_library) 84-149 `gen_generic_selection_function_macro`. `sb` is the builder that stays from call to call. -/
def selectionMacro (lt : Bool) (crit : Nat → Nat) (c : Cfg) (tbl : HTable Bytes) (sb : SB) (h : Heap) (numSlots : Int) (name : Bytes) (o : Opts) (oneArg : Bool) :
    Res (Nat × Heap × HTable Bytes × SB) := do
  let sb := sb.clear
  let (text, tbl) ← TokenFmt.tokenFmtVa crit Fmt.printfMax tbl [(b!"macro_name" ++ [0], name)] (firstTemplate o ++ [0])
  let (_, sb) ← sb.appendStr text
  let (tbl, sb) ← slots lt crit name numSlots.toNat 1 tbl sb
  let (_, sb) ← sb.appendStr b!"default: gen_generic_selection_fail\\\n"
  let (_, sb) ← sb.appendStr (lastLine o oneArg)
  let (_, sb) ← sb.appendStr b!"\n\n"
  let text ← SB.readN sb.data 0 sb.len
  let (code, h) ← untypedStr c h text
  return (code, h, tbl, sb)

end Verif.Select
