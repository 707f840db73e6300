import Verif.Proof.ParseTree
/-!
# The recursion of the parsing functions comes to an end
-/
namespace Verif.Parse
open Verif.Lex (Tok)
open Verif.Ast

variable {c : Ctx} {k : Nat} {g h : Heap}

theorem nspaceWith_brace {r : Rec} {w : CodeType} {s : St} {t : Tok} {x : Nat × St} (hw : w ∈ nspaceTypes) (ha : c.e.cells[s.idx]? = some t)
    (ht : t.type ≠ .BraceCurly_Open) : nspaceWith r w c.e s ≠ .ok x := by
  intro hx
  have hw : w ≠ .Global_Body := by rintro rfl; revert hw; decide
  unfold nspaceWith at hx
  rw [if_pos hw] at hx
  change (Res.bind _ _) = _ at hx
  obtain ⟨y, hy, -⟩ := Res.bind_eq_ok.mp hx
  obtain ⟨z, hz, -⟩ := Res.bind_eq_ok.mp hy
  obtain ⟨-, -, -, -, u, hu, hor⟩ := Safe.eat_ok hz
  have : some t = some u := ha.symm.trans hu
  cases this
  rcases hor with h1 | h1
  · exact ht h1
  · cases h1

theorem recN_good : ∀ {n k : Nat}, c.e.cells.length + 1 < n + k → c.RecGood k (recN n)
  | 0, k, hn => by
    have never : ∀ {p : P Nat} {V : Nat → Heap → Prop}, c.Good k p V Any :=
      fun k' g h hk hg s ho hk' _ => by have := ho.idx; omega
    exact ⟨fun _ => never, never, never, fun _ _ => never, fun _ _ _ _ _ _ _ => by intro h; cases h⟩
  | n + 1, k, hn => by
    have ih : ∀ k', k ≤ k' → c.RecGood (k' + 1) (recN n) := fun k' hk => recN_good (by omega)
    refine ⟨fun w k' g h hk => Safe.complicatedWith (ih k' hk), fun k' g h hk => Safe.templateWith (ih k' hk),
      fun k' g h hk => Safe.typedefWith (ih k' hk), fun w hw k' g h hk => Safe.nspaceBody (ih k' hk) ?_ ?_,
      fun w s t x hw ha ht => nspaceWith_brace hw ha ht⟩
    · rintro rfl; revert hw; decide
    · rintro rfl; revert hw; decide

namespace Safe

theorem withRec {α : Type} {f : Rec → P α} {V : α → Heap → Prop} {S : α → Prop} (hf : ∀ r, c.RecGood k r → Safe c k g h (f r) V S) :
    Safe c k g h (withRec f) V S :=
  fun hg s ho hk hh => hf _ (recN_good (by omega)) hg s ho hk hh

/-- No token reads as `const`. -/
def NoConst (e : Env) : Prop := ∀ t ∈ e.cells, ∀ b, e.bytes (.of t) = .ok b → strToSpecifier b ≠ .Const

theorem bytesV {t : Txt} : Safe c k g h (Parse.bytes t) (Of fun b => c.e.bytes t = .ok b) Never := by
  refine pureWith (fun s hx => ?_) fun s a s' ho hk hx => ?_
  · change (c.e.bytes t).bind _ = _ at hx
    cases hb : c.e.bytes t with
    | hang => unfold Env.bytes at hb; split at hb <;> (try split at hb) <;> cases hb
    | _ => rw [hb] at hx; cases hx
  · change (c.e.bytes t).bind _ = _ at hx
    obtain ⟨b, hb, hx⟩ := Res.bind_eq_ok.mp hx
    cases hx
    exact ⟨rfl, rfl, Nat.le_refl _, ho.idx, hb, False.elim⟩

theorem specifiersStuck {l f : List Specifier} (hc : c.hangs ∨ NoConst c.e) : Safe c k g h (Parse.specifiersLoop (stuckAtConst l) f) Top Never := by
  rcases hc with hc | hc
  · exact specifiersLoop (.inl hc)
  · unfold Parse.specifiersLoop
    refine loopTop fun _ _ _ => ?_
    refine bindN0 leftAnd fun _ => ite (fun _ => ?_) fun _ => by safe
    refine bindN curV fun t _ _ ht => bindN bytesV fun b _ _ hb => ?_
    have hn := hc t ht b hb
    have hk : stuckAtConst l (strToSpecifier b) ≠ some (some false) := by
      unfold stuckAtConst
      rw [if_neg hn]
      split <;> simp
    repeat' first | (with_reducible exact absurd ‹stuckAtConst l _ = _› hk) | sstep

/-- What `parse_function` gives. -/
def FnOr (c : Ctx) (p : Nat) (h : Heap) : Prop := p = c.e.cfg.invalid ∨ c.Is [.Function, .Function_Fwd] p h

theorem parseFunction (hc : c.hangs ∨ NoConst c.e) : Safe c k g h parseFunction (FnOr c) Never := by
  unfold Parse.parseFunction
  refine inScope ?_
  refine bindN0 exportFlag fun _ => bindN attributes fun a h1 hg1 ha => bindN0 (specifiersStuck hc) fun _ => bindN specsOf fun s h2 hg2 hs =>
    bindN type fun t h3 hg3 ht => bindN0 identifier fun _ => ite (fun _ => ?_) fun _ => ?_
  · exact bindEnv (pureH (fun _ _ => .inl rfl) (fun h => h))
  · refine bindN0 bytes fun _ => ?_
    exact (functionAfterName (ha.grow (hg2.trans hg3)) (hs.grow hg3) ht.opt).imp (fun _ _ h => .inr h) (fun _ h => h.elim)

theorem parseOperator (hc : c.hangs ∨ NoConst c.e) : Safe c k g h parseOperator (c.Is operatorTypes) Any := by
  unfold Parse.parseOperator
  refine inScope ?_
  refine bindN0 exportFlag fun _ => bindN attributes fun a h1 hg1 ha => bindN0 (specifiersStuck hc) fun _ => bindN specsOf fun s h2 hg2 hs =>
    bindN type fun t h3 hg3 ht => ?_
  exact operatorAfterRet (ha.grow (hg2.trans hg3)) (hs.grow hg3) ht.opt

end Safe
end Verif.Parse
