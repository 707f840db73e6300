import Verif.Proof.ParseFns
/-!
# Types and parameters
-/
namespace Verif.Parse
open Verif.Lex (Tok)
open Verif.Ast

namespace Safe
variable {c : Ctx} {α β σ : Type} {k : Nat} {g h : Heap}

theorem validIdentifier : Safe c k g h validIdentifier Top Never := by
  unfold Parse.validIdentifier
  safe

theorem nativeName : Safe c k g h nativeName Top Any := by
  unfold Parse.nativeName
  safe

theorem typeName {b : Bool} : Safe c k g h (typeName b) Top Never := by
  unfold Parse.typeName
  safe

theorem resLastCapture {l : List Tok} {n : Nat} : Safe c k g h (P.res (lastCapture l n)) Top Never := res lastCapture_ne_hang
macro_rules | `(tactic| sother) => `(tactic| with_reducible exact Safe.resLastCapture)

theorem functionType {b : Bool} : Safe c k g h (functionType b) Top Never := by
  unfold Parse.functionType
  safe

theorem functionTypeName {n : Nat} : Safe c k g h (functionTypeName n) Top Never := by
  unfold Parse.functionTypeName
  safe

/-- A table of specifiers with no dead end. -/
macro_rules | `(tactic| sval) => `(tactic| with_default ((refine Or.inr ?_); intro (s : Specifier); cases s <;> (intro h; cases h; done)))
/-- Two facts. -/
macro_rules | `(tactic| sval) => `(tactic| ((refine And.intro ?_ ?_) <;> (try dsimp only) <;> sval))
macro_rules | `(tactic| sref) => `(tactic| with_reducible first | exact Ctx.Opt.ref (And.left (by assumption)) | exact And.right (by assumption))

/-- What a function type is made of. -/
abbrev FnType (c : Ctx) (r : Bytes × Nat × Nat × List Specifier) (h : Heap) : Prop := c.Opt [.Typename] r.2.1 h ∧ c.Ref r.2.2.1

theorem functionTypeRest {ps : P Nat} {l : Nat} {b : Bytes} {f : List Specifier} (hp : c.Good k ps (Of c.Ref) Never) :
    Safe c k g h (functionTypeRest ps l b f) (FnType c) Never := by
  unfold Parse.functionTypeRest
  safe

theorem typeWith {ps : Bool → P Nat} {t f : Bool} (hp : c.Good k (ps false) (Of c.Ref) Never) :
    Safe c k g h (typeWith ps t f) (fun r => c.Is [.Typename] r.1) Never := by
  unfold Parse.typeWith
  repeat' sstep

theorem notEndParams {b : Bool} {t : Tok} : Safe c k g h (notEndParams b t) Top Never := by
  unfold Parse.notEndParams
  safe

theorem valueHere {b : Bool} {l : Int} : Safe c k g h (valueHere b l) Top Never := by
  unfold Parse.valueHere
  safe

theorem valueGoesOn {b : Bool} {l : Int × Int} : Safe c k g h (valueGoesOn b l) Top Never := by
  unfold Parse.valueGoesOn
  safe

theorem paramValue {b : Bool} : Safe c k g h (paramValue b) (c.Opt [.Untyped]) Never := by
  unfold Parse.paramValue
  safe

theorem paramName : Safe c k g h paramName Top Never := by
  unfold Parse.paramName
  safe

theorem macroExpr {m : Nat} (hm : c.Opt [.Untyped] m h) : Safe c k g h (macroExpr m) (c.Opt [.Untyped]) Never := by
  unfold Parse.macroExpr
  safe

/-- The variables of `parse_params` refer to codes of this parse. -/
abbrev _root_.Verif.Parse.Ctx.Vars (c : Ctx) (v : ParamVars) (h : Heap) : Prop :=
  c.Opt [.Typename] v.type h ∧ c.Opt [.Untyped] v.value h ∧ c.Opt [.Untyped] v.mac h ∧ c.Opt [.Untyped] v.post h

theorem vars_grow {v : ParamVars} {h h' : Heap} (i : c.Vars v h) (hg : Grow h h') : c.Vars v h' :=
  ⟨i.1.grow hg, i.2.1.grow hg, i.2.2.1.grow hg, i.2.2.2.grow hg⟩

macro_rules | `(tactic| sref) => `(tactic| with_reducible first | exact Ctx.Opt.ref (And.left (And.right (by assumption))) |
  exact Ctx.Opt.ref (And.left (And.right (And.right (by assumption)))) | exact Ctx.Opt.ref (And.right (And.right (And.right (by assumption)))))
macro_rules | `(tactic| sval) => `(tactic| with_reducible exact vars_grow (by assumption) (by grow))

theorem oneParam {ty : Bool → P Nat} {b : Bool} {v : ParamVars} (hv : c.Vars v h)
    (ht : c.Good k (ty b) (c.Is [.Typename]) Never) :
    Safe c k g h (oneParam ty b v) c.Vars Never := by
  obtain ⟨v1, v2, v3, v4⟩ := hv
  unfold Parse.oneParam
  safe

theorem _root_.Verif.Parse.Ctx.Mem.const {p : Nat} (h' : p ∈ c.e.constants) : c.Mem p h := .inr h'
theorem _root_.Verif.Parse.Ctx.ref_const {p : Nat} (h' : p ∈ c.e.constants) : c.Ref p := .inr (.inl h')
theorem paramVaradic : c.e.paramVaradic ∈ c.e.constants := by simp [Env.constants]

macro_rules | `(tactic| sref) => `(tactic| with_reducible exact Ctx.ref_const paramVaradic)
macro_rules | `(tactic| smem) => `(tactic| with_reducible exact Ctx.Mem.const paramVaradic)

theorem moreParams {ty : Bool → P Nat} {b : Bool} {r : Nat} {v : ParamVars} (hr : c.Solid r h) (hv : c.Vars v h)
    (ht : c.Good k (ty b) (c.Is [.Typename]) Never) :
    Safe c k g h (moreParams ty b r v) Top Never := by
  unfold Parse.moreParams
  refine bindN (loopH (I := c.Vars) (fun _ _ _ hg i => vars_grow i hg) hv fun v h' hg hv => ?_) fun _ _ _ _ => ?_
  · have hr := hr.grow hg
    repeat' sstep
  · safe

theorem checkOp {b : UInt8} : Safe c k g h (checkOp b) Top Never := by
  unfold Parse.checkOp
  safe

/-- `parse_params` behind the opening bracket. -/
theorem paramsWith {ty : Bool → P Nat} {b : Bool} (ht : c.Good (if b then k else k + 1) (ty b) (c.Is [.Typename]) Never) :
    Safe c k g h (paramsWith ty b) (Of c.Ref) (fun _ => b = false) := by
  unfold Parse.paramsWith
  cases b with
  | false =>
    have ht : c.Good (k + 1) (ty false) (c.Is [.Typename]) Never := ht
    simp only [Bool.not_false, Bool.false_eq_true, if_true, if_false]
    safe
  | true =>
    have ht : c.Good k (ty true) (c.Is [.Typename]) Never := ht
    simp only [Bool.not_true, Bool.false_eq_true, if_true, if_false]
    safe

theorem typeFst {ps : Bool → P Nat} {t f : Bool} (hp : c.Good k (ps false) (Of c.Ref) Never) :
    Safe c k g h (do return (← Parse.typeWith ps t f).1) (c.Is [.Typename]) Never := by
  safe

theorem paramsN_false : ∀ {n k : Nat} {g h : Heap}, c.e.cells.length ≤ n + k → Safe c k g h (paramsN (n + 1) false) (Of c.Ref) Any := by
  intro n
  induction n with
  | zero =>
    intro k g h hn
    unfold Parse.paramsN Parse.paramsWith
    simp only [Bool.not_false, if_true]
    refine inScope ?_
    refine bindST eatK fun _ hk => ?_
    omega
  | succ n ih =>
    intro k g h hn
    unfold Parse.paramsN
    refine Safe.imp (paramsWith (fun k' g h hk => typeFst fun k'' g h hk' => ?_)) (fun _ _ h => h) (fun _ _ => rfl)
    have : k + 1 ≤ k' := hk
    exact (ih (by omega)).never

theorem params {b : Bool} : Safe c k g h (params b) (Of c.Ref) (fun _ => b = false) := by
  intro hg s ho hk hh
  cases b with
  | false => exact ((paramsN_false (n := c.e.cells.length + 1) (by omega)).strict) hg s ho hk hh
  | true =>
    refine (?_ : Safe c k g h (paramsN (c.e.cells.length + 2) true) _ _) hg s ho hk hh
    unfold Parse.paramsN
    exact paramsWith (fun k' g h hk => typeFst fun k'' g h hk' => (paramsN_false (by omega)).never)

theorem paramsFalse : Safe c k g h (Parse.params false) (Of c.Ref) Any := params.imp (fun _ _ h => h) (fun _ _ => rfl)

theorem typedefType {b : Bool} : Safe c k g h (typedefType b) (fun r => c.Is [.Typename] r.1) Never := by
  unfold Parse.typedefType
  exact typeWith (Safe.good fun _ _ _ => paramsFalse.never)

theorem type {b : Bool} : Safe c k g h (type b) (c.Is [.Typename]) Never := by
  unfold Parse.type
  exact typeFst (Safe.good fun _ _ _ => paramsFalse.never)

end Safe
end Verif.Parse
