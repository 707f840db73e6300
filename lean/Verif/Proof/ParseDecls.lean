import Verif.Proof.ParseTypes
/-!
# Declarations without members
-/
namespace Verif.Parse
open Verif.Lex (Tok)
open Verif.Ast

namespace Safe
variable {c : Ctx} {α β σ : Type} {k : Nat} {g h : Heap}

theorem calledFrom {b : Bytes} : Safe c k g h (calledFrom b) Top Never := by
  unfold Parse.calledFrom
  safe

theorem codeSpecifier {s : Specifier} : Safe c k g h (P.code fun c h => defSpecifier c h s) (c.Is [.Specifiers]) Never :=
  code fun _ ho _ => defSpecifier_makes ho
macro_rules | `(tactic| sother) => `(tactic| with_reducible exact Safe.codeSpecifier)

theorem specifiersAppend {p : Nat} {s : Specifier} (hp : c.Fr p) :
    Safe c k g h (P.change fun h => (specifiersAppend c.e.cfg.fatal h p s).bind fun r => .ok r.2) Top Never :=
  change (V := Yes) fun _ ho _ => Ctx.Makes.keeps (Grow.refl _) (specifiersAppend_makes ho hp) fun _ _ ho hg _ => ⟨ho, hg, trivial⟩
macro_rules | `(tactic| sother) => `(tactic| with_reducible exact Safe.specifiersAppend (by sfr))

theorem addSpec {p : Nat} {s : Specifier} (hp : c.Opt [.Specifiers] p h) : Safe c k g h (addSpec p s) (c.Opt [.Specifiers]) Never := by
  unfold Parse.addSpec
  safe

theorem commaConst {p : Nat} : Safe c k g h (commaConst p) Top Never := by
  unfold Parse.commaConst
  safe

theorem loopOpt {ts : List CodeType} {step : Nat → P (Bool × Nat)} {x : Nat} (hx : c.Opt ts x h)
    (hstep : ∀ x h', Grow h h' → c.Opt ts x h' → Safe c k h' h' (step x) (fun r => c.Opt ts r.2) (fun r => r.1 = true)) :
    Safe c k g h (P.loop step x) (c.Opt ts) Never :=
  loopH (fun _ _ _ hg i => i.grow hg) hx hstep

theorem commaSpecs : Safe c k g h commaSpecs (c.Opt [.Specifiers]) Never := by
  unfold Parse.commaSpecs
  refine loopOpt .zero fun _ _ _ _ => ?_
  safe

theorem braceInit {x : Nat} (hx : c.Opt [.Untyped] x h) : Safe c k g h (braceInit x) (c.Opt [.Untyped]) Never := by
  unfold Parse.braceInit
  safe

theorem parenInit {x : Nat} (hx : c.Opt [.Untyped] x h) : Safe c k g h (parenInit x) (fun r => c.Opt [.Untyped] r.1) Never := by
  unfold Parse.parenInit
  safe

theorem bitfield : Safe c k g h bitfield (c.Opt [.Untyped]) Never := by
  unfold Parse.bitfield
  safe

/-- The other variables of a declaration, and the comment. -/
abbrev VarRest (c : Ctx) (r : Nat × Nat) (h : Heap) : Prop := c.Opt [.Variable] r.1 h ∧ c.Opt [.Comment] r.2 h

macro_rules | `(tactic| sref) => `(tactic| with_reducible exact Ctx.Opt.ref (And.right (by assumption)))
macro_rules | `(tactic| sfr) => `(tactic| with_reducible first | exact Ctx.Opt.fr (And.right (by assumption)) | exact Ctx.Opt.fr (And.left (by assumption)))

theorem varAfterName {rest : P (Nat × Nat)} {m a s t : Nat} {b : Bytes} (hr : c.Good k rest (VarRest c) Never) (ha : c.Opt [.PlatformAttributes] a h)
    (hs : c.Opt [.Specifiers] s h) (ht : c.Fr t) : Safe c k g h (varAfterName rest m a s t b) (c.Is [.Variable]) Never := by
  unfold Parse.varAfterName
  safe

theorem varAfterNameS {rest : P (Nat × Nat)} {m a s t : Nat} {b : Bytes} (hr : c.Good k rest (VarRest c) Any) (ha : c.Opt [.PlatformAttributes] a h)
    (hs : c.Opt [.Specifiers] s h) (ht : c.Fr t) : Safe c k g h (Parse.varAfterName rest m a s t b) (c.Is [.Variable]) Any := by
  unfold Parse.varAfterName
  safe

theorem noRest : c.Good k (Pure.pure (0, 0)) (VarRest c) Never :=
  fun _ _ _ _ => pureH (fun _ _ => ⟨.zero, .zero⟩) (by snot)

macro_rules | `(tactic| sval) => `(tactic| exact noRest)

theorem commaVar : Safe c k g h commaVar (c.Is [.Variable]) Any := by
  unfold Parse.commaVar
  safe

theorem pair_grow {ts us : List CodeType} (x : Nat × Nat) (h h' : Heap) (hg : Grow h h') (i : c.Opt ts x.1 h ∧ c.Opt us x.2 h) :
    c.Opt ts x.1 h' ∧ c.Opt us x.2 h' := ⟨i.1.grow hg, i.2.grow hg⟩

theorem varList : Safe c k g h varList (c.Opt [.Variable]) Never := by
  unfold Parse.varList
  refine inScope ?_
  refine bindN (loopH (I := fun x h => c.Opt [.Variable] x.1 h ∧ c.Opt [.Variable] x.2 h) pair_grow
    ⟨.zero, .zero⟩ fun x h' hg hv => ?_) fun _ _ _ hv => ?_
  · obtain ⟨hv1, hv2⟩ := hv
    safe
  · obtain ⟨hv1, hv2⟩ := hv
    safe

theorem varRest : Safe c k g h varRest (VarRest c) Any := by
  unfold Parse.varRest
  safe

theorem variableAfterName {ts : List CodeType} {m a s t : Nat} {b : Bytes} (ha : c.Opt [.PlatformAttributes] a h)
    (hs : c.Opt [.Specifiers] s h) (ht : c.Is ts t h) : Safe c k g h (variableAfterName m a s t b) (c.Is [.Variable]) Any := by
  unfold Parse.variableAfterName
  rw [if_neg ht.ne]
  exact varAfterNameS (Safe.good fun _ _ _ => varRest) ha hs ht.fr

theorem fnSuffix {s : Nat} (hs : c.Opt [.Specifiers] s h) :
    Safe c k g h (fnSuffix s) (fun r h => c.Opt [.Specifiers] r.1 h ∧ c.Opt [.Untyped] r.2 h) Never := by
  unfold Parse.fnSuffix
  refine loopH pair_grow ⟨hs, .zero⟩ fun x h' hg hv => ?_
  obtain ⟨hv1, hv2⟩ := hv
  safe

theorem tokIs {t : Tok} {b : Bytes} : Safe c k g h (tokIs t b) Top Never := by
  unfold Parse.tokIs
  safe

theorem fnPure {s : Nat} (hs : c.Opt [.Specifiers] s h) :
    Safe c k g h (fnPure s) (fun r h => c.Opt [.Specifiers] r.1 h ∧ c.Opt [.Comment] r.2 h) Any := by
  unfold Parse.fnPure
  safe

theorem functionAfterName {m a s t : Nat} {b : Bytes} (ha : c.Opt [.PlatformAttributes] a h)
    (hs : c.Opt [.Specifiers] s h) (ht : c.Opt [.Typename] t h) :
    Safe c k g h (functionAfterName m a s t b) (c.Is [.Function, .Function_Fwd]) Any := by
  unfold Parse.functionAfterName
  refine inScope ?_
  refine bindS paramsFalse fun _ _ _ _ => ?_
  safe

theorem qualifiers : Safe c k g h qualifiers Top Never := by
  unfold Parse.qualifiers
  safe

theorem resSkip {q : Tok → Bool} {l : List Tok} {n : Nat} : Safe c k g h (P.res (skipFmt q l n)) Top Never := res skipFmt_hang
macro_rules | `(tactic| sother) => `(tactic| with_reducible exact Safe.resSkip)

theorem textAt {n : Nat} : Safe c k g h (textAt n) Top Never := by
  intro hg s ho hk hh
  show c.After g s Top Never (if _ then _ else _)
  split
  · exact ⟨ho, trivial, rfl, Nat.le_refl _, False.elim, hg.trans hh⟩
  · trivial

theorem textFrom {t : Tok} : Safe c k g h (textFrom t) Top Never := textAt

theorem arrayOp {a b : Operator} : Safe c k g h (arrayOp a b) Top Never := by
  unfold Parse.arrayOp
  safe

theorem newDelete : Safe c k g h newDelete Top Any := by
  unfold Parse.newDelete
  safe

/-- Where `operator` has been eaten it is among the tokens. -/
theorem eatOp : Safe c k g h (Parse.eat .Decl_Operator) (Of fun _ => c.hangs) Any := by
  apply pureWith
  · exact fun s h => (eat_hang h).elim
  · intro s a s' ho hk h
    obtain ⟨h1, h2, h3, h4, t, h5, h6⟩ := eat_ok h
    refine ⟨h2, h3, by omega, by omega, ?_, fun _ => by omega⟩
    rcases c.noOp with hh | hh
    · exact hh
    · rcases h6 with h6 | h6
      · exact (hh t (List.mem_of_getElem? h5) h6).elim
      · cases h6

theorem starOp (hh : c.hangs) : Safe c k g h starOp Top Never := by
  unfold Parse.starOp
  repeat' first | sstep | exact hang hh

theorem operatorToken (hh : c.hangs) : Safe c k g h operatorToken Top Any := by
  unfold Parse.operatorToken
  safe

theorem operatorName : Safe c k g h operatorName (Of fun _ => c.hangs) Any := by
  unfold Parse.operatorName
  refine bindST eatOp fun _ hh => ?_
  exact Safe.imp (operatorToken hh) (fun _ _ _ => hh) (fun _ _ => trivial)

theorem opSuffix {s : Nat} (hs : c.Opt [.Specifiers] s h) : Safe c k g h (opSuffix s) (c.Opt [.Specifiers]) Never := by
  unfold Parse.opSuffix
  refine loopOpt hs fun _ _ _ _ => ?_
  safe

theorem opDelete {s : Nat} (hs : c.Opt [.Specifiers] s h) : Safe c k g h (opDelete s) (c.Opt [.Specifiers]) Never := by
  unfold Parse.opDelete
  safe

theorem codeOperator {op : Operator} {b : Bytes} {p : OptsOperator} (hh : c.hangs)
    (h1 : c.Ref p.params) (h2 : c.Ref p.retType) (h3 : c.Ref p.body) (h4 : c.Ref p.specifiers) (h5 : c.Ref p.attributes) :
    Safe c k g h (P.code fun c h => defOperator (h.next + 1) c h op b p) (c.Is operatorTypes) Never :=
  code fun _ ho _ => defOperator_makes hh ho h1 h2 h3 h4 h5
macro_rules | `(tactic| sother) => `(tactic| with_reducible exact Safe.codeOperator (by assumption) (by sref) (by sref) (by sref) (by sref) (by sref))

theorem operatorAfterRet {m a s t : Nat} (ha : c.Opt [.PlatformAttributes] a h)
    (hs : c.Opt [.Specifiers] s h) (ht : c.Opt [.Typename] t h) :
    Safe c k g h (operatorAfterRet m a s t) (c.Is operatorTypes) Any := by
  unfold Parse.operatorAfterRet
  safe

theorem resOperatorAhead {i : Nat} : Safe c k g h (P.res (operatorAhead c.e.cells c.e.num (c.e.cells.length + 1) i)) Top Never :=
  res (operatorAhead_ne_hang (by omega))
theorem resCloseAhead {i : Nat} {l : Int} : Safe c k g h (P.res (closeAhead c.e.cells c.e.num (c.e.cells.length + 1) i l)) Top Never :=
  res (closeAhead_ne_hang (by omega))
theorem resSpecifiersRef {e : Ser.Env} {p : Nat} : Safe c k g h (P.res (Ser.specifiersRef e p [])) Top Never := res specifiersRef_ne_hang
macro_rules | `(tactic| sother) => `(tactic| with_reducible first
  | exact Safe.resOperatorAhead | exact Safe.resCloseAhead | exact Safe.resSpecifiersRef)

theorem operatorComes : Safe c k g h operatorComes Top Never := by
  unfold Parse.operatorComes
  safe

theorem valuesAhead : Safe c k g h valuesAhead Top Never := by
  unfold Parse.valuesAhead
  safe

theorem attrsText {p : Nat} : Safe c k g h (attrsText p) Top Never := by
  unfold Parse.attrsText
  safe

theorem specsText {p : Nat} : Safe c k g h (specsText p) Top Never := by
  unfold Parse.specsText
  safe

macro_rules | `(tactic| snot) => `(tactic| first | exact (fun h => h rfl))

theorem macroAsDefinition {a s : Nat} : Safe c k g h (macroAsDefinition a s) (c.Opt [.Untyped]) (fun r => r ≠ 0) := by
  unfold Parse.macroAsDefinition
  safe

theorem moreAttributes {a : Nat} (ha : c.Opt [.PlatformAttributes] a h) : Safe c k g h (moreAttributes a) (c.Opt [.PlatformAttributes]) Never := by
  unfold Parse.moreAttributes
  safe

/-- What `parse_operator_function_or_variable` makes. -/
abbrev _root_.Verif.Parse.memberTypes : List CodeType := [.Untyped, .Operator, .Operator_Fwd, .Operator_Member, .Operator_Member_Fwd, .Function, .Function_Fwd, .Variable]

theorem opFnOrVar {b : Bool} {a s : Nat} (ha : c.Opt [.PlatformAttributes] a h) (hs : c.Opt [.Specifiers] s h) :
    Safe c k g h (opFnOrVar b a s) (c.Is memberTypes) Any := by
  unfold Parse.opFnOrVar
  refine inScope (bindC macroAsDefinition (fun m h' hg hv hm => ?_) fun m h' hg hv hm => ?_)
  · rw [if_pos hm]
    have hv := hv.resolve_left hm
    safe
  · rw [if_neg hm]
    have ha := ha.grow hg
    have hs := hs.grow hg
    safe

theorem initializerList : Safe c k g h initializerList (c.Is [.Untyped]) Never := by
  unfold Parse.initializerList
  safe

macro_rules | `(tactic| sval) => `(tactic| (split <;> sval))

theorem bodyIfFunction {b : Nat} (hb : c.Opt [.Untyped, .Function_Body] b h) :
    Safe c k g h (bodyIfFunction b) (c.Opt [.Untyped, .Function_Body]) Never := by
  unfold Parse.bodyIfFunction
  safe

theorem constructor {s : Nat} (hs : c.Opt [.Specifiers] s h) : Safe c k g h (constructor s) (c.Is [.Constructor, .Constructor_Fwd]) Any := by
  unfold Parse.constructor
  safe

theorem destructorAssign {s : Nat} (hs : c.Opt [.Specifiers] s h) : Safe c k g h (destructorAssign s) (fun r => c.Opt [.Untyped] r.1) Never := by
  unfold Parse.destructorAssign
  safe

set_option maxHeartbeats 2000000 in
theorem destructor {s : Nat} (hs : c.Opt [.Specifiers] s h) : Safe c k g h (destructor s) (c.Is [.Destructor, .Destructor_Fwd]) Any := by
  unfold Parse.destructor
  safe

theorem enumValue : Safe c k g h enumValue Top Never := by
  unfold Parse.enumValue
  safe

theorem enumEntry : Safe c k g h enumEntry (c.Is [.Untyped]) Any := by
  unfold Parse.enumEntry
  safe

/-- What may be put into a body. -/
theorem preElse : c.e.preElse ∈ c.e.constants := by simp [Env.constants]
theorem preEndif : c.e.preEndif ∈ c.e.constants := by simp [Env.constants]
theorem fmtNewline : c.e.fmtNewline ∈ c.e.constants := by simp [Env.constants]
macro_rules | `(tactic| smem) => `(tactic| with_reducible first | exact Ctx.Mem.const preElse | exact Ctx.Mem.const preEndif | exact Ctx.Mem.const fmtNewline)
macro_rules | `(tactic| sval) => `(tactic| with_reducible smem)

theorem directive {ty : TokType} {p : P Nat} (hp : directive ty = some p) : Safe c k g h p c.Mem Any := by
  unfold Parse.directive at hp
  split at hp <;> first
    | cases hp; done
    | (injection hp with hp; subst hp; safe; done)

end Safe
end Verif.Parse
