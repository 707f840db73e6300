import Verif.Proof.ParseDecls
/-!
# Enums, functions, operators, using, variables
-/
namespace Verif.Parse
open Verif.Lex (Tok)
open Verif.Ast

namespace Safe
variable {c : Ctx} {α β σ : Type} {k : Nat} {g h : Heap}

theorem hash : Safe c k g h hash Top Never := by
  unfold Parse.hash
  safe

theorem bodyAdd {b m : Nat} (hb : c.Solid b h) (hm : c.Mem m h) : Safe c k g h (bodyAdd b m) Top Never := by
  unfold Parse.bodyAdd
  safe

theorem enumMember : Safe c k g h enumMember c.Mem Any := by
  unfold Parse.enumMember
  repeat' first | sstep | exact directive ‹_›

theorem enumBody : Safe c k g h enumBody (c.Opt [.Enum_Body]) Never := by
  unfold Parse.enumBody
  safe

theorem enumUnderlying : Safe c k g h enumUnderlying (fun r h => c.Opt [.Typename] r.1 h ∧ c.Opt [.Untyped] r.2 h) Never := by
  unfold Parse.enumUnderlying
  safe

abbrev _root_.Verif.Parse.enumTypes : List CodeType := [.Enum, .Enum_Class, .Enum_Fwd, .Enum_Class_Fwd]

set_option maxHeartbeats 1000000 in
theorem parseEnum {b : Bool} : Safe c k g h (parseEnum b) (c.Is enumTypes) Any := by
  unfold Parse.parseEnum
  safe

theorem exportFlag : Safe c k g h exportFlag Top Never := by
  unfold Parse.exportFlag
  safe

/-- `const` stops the loop, and nothing else does without being eaten. -/
theorem orConst_live {l : List Specifier} (s : Specifier) : orConst l s ≠ some (some false) := by
  unfold orConst
  split
  · exact fun h => nomatch h
  · split <;> exact fun h => nomatch h
macro_rules | `(tactic| sval) => `(tactic| exact Or.inr orConst_live)

macro_rules | `(tactic| sref) => `(tactic| (split <;> sref))

set_option maxHeartbeats 2000000 in
theorem friend : Safe c k g h friend (c.Is [.Friend]) Any := by
  unfold Parse.friend
  safe

theorem operatorCast {s : Nat} (hs : c.Opt [.Specifiers] s h) : Safe c k g h (operatorCast s) (c.Is [.Operator_Cast, .Operator_Cast_Fwd]) Any := by
  unfold Parse.operatorCast
  safe

set_option maxHeartbeats 1000000 in
theorem parseUsing : Safe c k g h parseUsing (c.Is [.Using, .Using_Namespace]) Any := by
  unfold Parse.parseUsing
  safe

theorem parseVariable : Safe c k g h parseVariable (c.Is [.Variable]) Any := by
  unfold Parse.parseVariable
  safe

end Safe
end Verif.Parse
