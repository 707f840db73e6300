import Verif.Proof.ParseLeaf
import Lean.Elab.Tactic
/-!
# Steps of proofs in the logic for the parsing functions
-/
namespace Verif.Parse
open Verif.Lex (Tok)
open Verif.Ast

variable {c : Ctx} {α β σ : Type}

/-- Null, or a node made in this parse of one of these types. -/
def Ctx.Opt (c : Ctx) (ts : List CodeType) (p : Nat) (h : Heap) : Prop := p = 0 ∨ c.Is ts p h

theorem Ctx.Opt.grow {ts : List CodeType} {p : Nat} {h h' : Heap} (i : c.Opt ts p h) (g : Grow h h') : c.Opt ts p h' := i.imp id (·.grow g)
theorem Ctx.Opt.fr {ts : List CodeType} {p : Nat} {h : Heap} (i : c.Opt ts p h) : c.Fr p := i.imp id (·.1)
theorem Ctx.Opt.ref {ts : List CodeType} {p : Nat} {h : Heap} (i : c.Opt ts p h) : c.Ref p := .inl i.fr
theorem Ctx.Opt.zero {ts : List CodeType} {h : Heap} : c.Opt ts 0 h := .inl rfl
theorem Ctx.Is.opt {ts : List CodeType} {p : Nat} {h : Heap} (i : c.Is ts p h) : c.Opt ts p h := .inr i
theorem Ctx.Opt.mono {ts ts' : List CodeType} {p : Nat} {h : Heap} (i : c.Opt ts p h) (hs : ∀ t ∈ ts, t ∈ ts') : c.Opt ts' p h := i.imp id (·.mono hs)

theorem Ctx.New.grow_is {n : Node} {p : Nat} {h h' : Heap} {ts : List CodeType} (i : c.New n p h) (g : Grow h h') (ht : n.type ∈ ts) : c.Is ts p h' :=
  (i.is ht).grow g
theorem Ctx.Item.grow {p : Nat} {h h' : Heap} (i : c.Item p h) (g : Grow h h') : c.Item p h' := by
  rcases i with i | i
  · exact .inl ⟨i.1, Nat.lt_of_lt_of_le i.2.1 g.next, (g.type p i.2.1) ▸ i.2.2⟩
  · exact .inr i
theorem Ctx.Mem.grow {p : Nat} {h h' : Heap} (i : c.Mem p h) (g : Grow h h') : c.Mem p h' := by
  rcases i with i | i
  · exact .inl ⟨i.1, Nat.lt_of_lt_of_le i.2.1 g.next, (g.type p i.2.1) ▸ i.2.2.1, (g.type p i.2.1) ▸ i.2.2.2⟩
  · exact .inr i

/-- A node of this parse that is not a type. -/
def Ctx.Solid (c : Ctx) (p : Nat) (h : Heap) : Prop := c.N ≤ p ∧ p < h.next ∧ (h.cell p).type ≠ .Typename
theorem Ctx.Solid.grow {p : Nat} {h h' : Heap} (i : c.Solid p h) (g : Grow h h') : c.Solid p h' :=
  ⟨i.1, Nat.lt_of_lt_of_le i.2.1 g.next, (g.type p i.2.1) ▸ i.2.2⟩
theorem Ctx.Solid.item {p : Nat} {h : Heap} (i : c.Solid p h) : c.Item p h := .inl i
theorem Ctx.Is.solid {ts : List CodeType} {p : Nat} {h : Heap} (i : c.Is ts p h) (hs : ∀ t ∈ ts, t ≠ .Typename) : c.Solid p h :=
  ⟨i.1, i.2.1, hs _ i.2.2⟩
theorem Ctx.Is.mem {ts : List CodeType} {p : Nat} {h : Heap} (i : c.Is ts p h) (hs : ∀ t ∈ ts, t ≠ .Typename ∧ isBodyType t = false) : c.Mem p h :=
  .inl ⟨i.1, i.2.1, (hs _ i.2.2).1, (hs _ i.2.2).2⟩
theorem Ctx.New.solid {n : Node} {p : Nat} {h h' : Heap} (i : c.New n p h) (g : Grow h h') (hs : n.type ≠ .Typename) : c.Solid p h' :=
  Ctx.Solid.grow ⟨i.1, i.2.1, i.2.2 ▸ hs⟩ g
theorem Ctx.New.fr {n : Node} {p : Nat} {h : Heap} (i : c.New n p h) : c.Fr p := .inr i.1

/-- The codes a node refers to. -/
theorem slots_of {n : Node} (h1 : c.Ref n.inlineCmt) (h2 : c.Ref n.attributes) (h3 : c.Ref n.specs) (h4 : c.Ref n.typ) (h5 : c.Ref n.params)
    (h6 : c.Ref n.body) (h7 : c.Ref n.suffix) (h8 : c.Ref n.parent) : ∀ q ∈ slots n, c.Ref q := by
  intro q hq
  simp only [slots, List.mem_cons, List.not_mem_nil, or_false] at hq
  rcases hq with rfl | rfl | rfl | rfl | rfl | rfl | rfl | rfl <;> assumption

theorem slots_to {n : Node} (h : ∀ q ∈ slots n, c.Ref q) : c.Ref n.inlineCmt ∧ c.Ref n.attributes ∧ c.Ref n.specs ∧ c.Ref n.typ ∧
    c.Ref n.params ∧ c.Ref n.body ∧ c.Ref n.suffix ∧ c.Ref n.parent := by
  simp only [slots, List.mem_cons, List.not_mem_nil, or_false] at h
  refine ⟨h _ ?_, h _ ?_, h _ ?_, h _ ?_, h _ ?_, h _ ?_, h _ ?_, h _ ?_⟩ <;> simp

/-- One heap has grown out of another, by the steps in between. -/
macro "grow" : tactic => `(tactic| first | assumption | exact Grow.refl _ | (refine Grow.trans (by assumption) ?_; first | assumption | exact Grow.refl _ |
  (refine Grow.trans (by assumption) ?_; first | assumption | exact Grow.refl _ | (refine Grow.trans (by assumption) ?_; first | assumption | exact Grow.refl _ |
  (refine Grow.trans (by assumption) ?_; first | assumption | exact Grow.refl _ | (refine Grow.trans (by assumption) ?_; first | assumption | exact Grow.refl _ |
  (refine Grow.trans (by assumption) ?_; first | assumption | exact Grow.refl _ | (refine Grow.trans (by assumption) ?_; first | assumption | exact Grow.refl _ |
  (refine Grow.trans (by assumption) ?_; first | assumption | exact Grow.refl _ | (refine Grow.trans (by assumption) ?_; first | assumption | exact Grow.refl _ |
  (refine Grow.trans (by assumption) ?_; first | assumption | exact Grow.refl _ | (refine Grow.trans (by assumption) ?_; first | assumption | exact Grow.refl _ |
  (refine Grow.trans (by assumption) ?_; first | assumption | exact Grow.refl _ | (refine Grow.trans (by assumption) ?_; first | assumption | exact Grow.refl _))))))))))))))

/-- Unfolds definitions again. -/
elab "with_default " t:tacticSeq : tactic => Lean.Meta.withTransparency .default (Lean.Elab.Tactic.evalTactic t)

/-- A reference. -/
macro "sref" : tactic => `(tactic| with_reducible first
  | exact Ctx.ref_zero
  | assumption
  | exact Ctx.Fr.ref (by assumption)
  | exact Ctx.Is.ref (by assumption)
  | exact Ctx.Opt.ref (by assumption)
  | exact Ctx.Fr.ref (Ctx.New.fr (by assumption)))

macro "sfr" : tactic => `(tactic| with_reducible first
  | assumption
  | exact Ctx.Is.fr (by assumption)
  | exact Ctx.New.fr (by assumption)
  | exact Ctx.Opt.fr (by assumption)
  | exact Ctx.fr_zero)

macro "dec" : tactic => `(tactic| with_default first | decide | (simp; done) | ((repeat' split) <;> simp; done))

/-- A node of this parse that is not a type. -/
macro "ssolid" : tactic => `(tactic| with_reducible first
  | exact Ctx.Solid.grow (by assumption) (by grow)
  | exact Ctx.New.solid (by assumption) (by grow) (by dec)
  | exact Ctx.Is.solid (Ctx.Is.grow (by assumption) (by grow)) (by dec))

macro "smem" : tactic => `(tactic| with_reducible first
  | exact Ctx.Mem.grow (by assumption) (by grow)
  | exact Ctx.Is.mem (Ctx.Is.grow (by assumption) (by grow)) (by dec))

macro "sitem" : tactic => `(tactic| with_reducible first
  | exact Ctx.Solid.item (by ssolid)
  | exact Ctx.Mem.item (by smem))

/-- A fact about a result. -/
syntax "sval" : tactic
macro_rules | `(tactic| sval) => `(tactic| with_reducible first
  | exact True.intro
  | exact Ctx.Opt.zero
  | exact Ctx.Is.grow (by assumption) (by grow)
  | exact Ctx.Opt.grow (by assumption) (by grow)
  | exact Ctx.Is.opt (Ctx.Is.grow (by assumption) (by grow))
  | exact Ctx.New.grow_is (by assumption) (by grow) (by dec)
  | exact Ctx.Is.opt (Ctx.New.grow_is (by assumption) (by grow) (by dec))
  | exact Ctx.Is.mono (Ctx.Is.grow (by assumption) (by grow)) (by dec)
  | exact Ctx.Is.opt (Ctx.Is.mono (Ctx.Is.grow (by assumption) (by grow)) (by dec))
  | exact Ctx.Opt.mono (Ctx.Opt.grow (by assumption) (by grow)) (by dec)
  | sref
  | sfr
  | assumption)

/-- That a result need not have moved on. -/
macro "snot" : tactic => `(tactic| first | exact (fun h => h) | (intro h; cases h; done))

/-- A function that is safe from some index on. -/
def Ctx.Good (c : Ctx) (k : Nat) (p : P α) (V : α → Heap → Prop) (S : α → Prop) : Prop := ∀ k' g h, k ≤ k' → Safe c k' g h p V S
theorem Ctx.Good.up {k k' : Nat} {p : P α} {V : α → Heap → Prop} {S : α → Prop} (hp : c.Good k p V S) (hk : k ≤ k') : c.Good k' p V S :=
  fun _ _ _ h => hp _ _ _ (Nat.le_trans hk h)
theorem Ctx.Good.safe {k k' : Nat} {g h : Heap} {p : P α} {V : α → Heap → Prop} {S : α → Prop} (hp : c.Good k p V S) (hk : k ≤ k') :
    Safe c k' g h p V S := hp _ _ _ hk
theorem Safe.good {k : Nat} {p : P α} {V : α → Heap → Prop} {S : α → Prop} (hp : ∀ k g h, Safe c k g h p V S) : c.Good k p V S :=
  fun _ _ _ _ => hp _ _ _

/-- What a lemma about a call asks for. -/
macro "sside" : tactic => `(tactic| first | sref | sfr | ssolid | smem | sitem | with_reducible assumption | with_reducible exact Ctx.Good.up (by assumption) (by omega) | sval)

/-- A call that is not of a function with a lemma of its own. -/
syntax "sother" : tactic
macro_rules | `(tactic| sother) => `(tactic| with_reducible first | assumption | exact Ctx.Good.safe (by assumption) (by omega))

macro "simp_s" : tactic => `(tactic| first | exact (fun _ h => h) | exact (fun _ _ => trivial) | exact (fun _ h => h.elim))

section
open Lean Meta Elab Tactic

/-- The parsing function a goal is about. -/
def subject : TacticM Expr := withMainContext do
  let t ← instantiateMVars (← getMainTarget)
  let t := t.consumeMData
  unless t.isAppOf ``Safe do throwError "no statement about a parsing function"
  return (t.getAppArgs[5]!).consumeMData

/-- The lemma about a call: it has the name of the function. -/
def lemmaFor (p : Expr) : MetaM (Option Name) := do
  match p.getAppFn with
  | .const n _ =>
    if [``P.loop, ``P.code, ``P.change, ``P.res, ``P.make, ``P.set, ``inScope, ``ite].contains n then return none
    unless (`Verif.Parse).isPrefixOf n do return none
    let l := `Verif.Parse.Safe ++ Name.mkSimple n.getString!
    if (← getEnv).contains l then return some l else return none
  | _ => return none

/-- A call whose lemma is known. -/
elab "sleaf" : tactic => do
  match ← lemmaFor (← subject) with
  | some l => evalTactic (← `(tactic| ((with_reducible apply $(mkIdent l)) <;> sside)))
  | none => evalTactic (← `(tactic| sother))

/-- Whether the lemma gives no fact, and whether the call always moves on. -/
def lemmaKind (l : Name) : MetaM (Bool × Bool) := do
  let (_, _, t) ← forallMetaTelescope (← inferType (← mkConstWithFreshMVarLevels l))
  let args := t.getAppArgs
  return (args[6]!.isAppOf ``Top, args[7]!.isAppOf ``Any)

/-- Takes conjunctions apart. -/
elab "sopen" : tactic => do
  let mut go := true
  while go do
    go := false
    let g ← getMainGoal
    let found ← g.withContext do
      for d in (← getLCtx) do
        unless d.isImplementationDetail do
          let t ← withReducible (whnf (← instantiateMVars d.type))
          if t.isAppOfArity ``And 2 then return some d.fvarId
      return none
    if let some f := found then
      let gs ← g.cases f
      replaceMainGoal (gs.map (·.mvarId)).toList
      go := true

/-- A step. -/
elab "sstep" : tactic => withoutRecover do
  let p ← subject
  if p.isAppOf ``Bind.bind then
    let q := p.getAppArgs[4]!.consumeMData
    if q.isAppOf ``Pure.pure then evalTactic (← `(tactic| with_reducible refine Safe.bindP ?_))
    else if q.isAppOf ``P.fail then evalTactic (← `(tactic| with_reducible exact Safe.bindFail))
    else if q.isAppOf ``P.ub then evalTactic (← `(tactic| with_reducible exact Safe.bindUb))
    else if q.isAppOf ``P.env then evalTactic (← `(tactic| with_reducible refine Safe.bindEnv ?_))
    else match ← lemmaFor q with
      | some l => match ← lemmaKind l with
        | (true, true) => evalTactic (← `(tactic| with_reducible refine Safe.bindS0 (by sleaf) fun _ => ?_))
        | (true, false) => evalTactic (← `(tactic| with_reducible refine Safe.bindN0 (Safe.never (by sleaf)) fun _ => ?_))
        | (false, true) => evalTactic (← `(tactic| ((with_reducible refine Safe.bindS (by sleaf) fun _ _ _ _ => ?_); sopen)))
        | (false, false) => evalTactic (← `(tactic| ((with_reducible refine Safe.bindN (Safe.never (by sleaf)) fun _ _ _ _ => ?_); sopen)))
      | none => evalTactic (← `(tactic| first
          | with_reducible refine Safe.bindS0 (by sother) fun _ => ?_
          | with_reducible refine Safe.bindN0 (Safe.never (by sother)) fun _ => ?_
          | ((with_reducible refine Safe.bindS (by sother) fun _ _ _ _ => ?_); sopen)
          | ((with_reducible refine Safe.bindN (Safe.never (by sother)) fun _ _ _ _ => ?_); sopen)))
  else if p.isAppOf ``Pure.pure then
    evalTactic (← `(tactic| with_reducible exact Safe.pureH (by intro _ _; sval) (by with_default snot)))
  else if p.isAppOf ``ite then evalTactic (← `(tactic| with_reducible refine Safe.ite (fun _ => ?_) (fun _ => ?_)))
  else if p.isAppOf ``inScope then evalTactic (← `(tactic| with_reducible refine Safe.inScope ?_))
  else if p.isAppOf ``P.fail then evalTactic (← `(tactic| with_reducible exact Safe.fail))
  else if p.isAppOf ``P.ub then evalTactic (← `(tactic| with_reducible exact Safe.ub))
  else match p.getAppFn with
    | .lam .. => evalTactic (← `(tactic| dsimp only))
    | .letE .. => evalTactic (← `(tactic| dsimp only))
    | _ =>
      if ← (do return (← matchMatcherApp? p).isSome) then evalTactic (← `(tactic| (split <;> (try dsimp only at *))))
      else evalTactic (← `(tactic| with_reducible exact Safe.imp (by sleaf) (by intro _ _ _; sval) (by with_default simp_s)))

end

/-- All steps. -/
macro "safe" : tactic => `(tactic| repeat' sstep)

namespace Safe
variable {k : Nat} {g h : Heap}

theorem check {ty : TokType} : Safe c k g h (check ty) Top Never := by
  unfold Parse.check
  safe

theorem checkN {ty : TokType} : Safe c k g h (checkN ty) Top Never := by
  unfold Parse.checkN
  safe

theorem leftAnd {p : Tok → Bool} : Safe c k g h (leftAnd p) Top Never := by
  unfold Parse.leftAnd
  safe

theorem asIdentifier {b : Bytes} : Safe c k g h (asIdentifier b) Top Never := by
  unfold Parse.asIdentifier
  safe

/-- What `lex__eat` does: the token it eats is there. -/
theorem eat_ok {e : Env} {s s' : St} {ty : TokType} {u : Unit} (h : Parse.eat ty e s = .ok (u, s')) :
    s.idx < e.cells.length ∧ s'.heap = s.heap ∧ s'.scope = s.scope ∧ (s'.idx = s.idx + 1 ∨ s'.idx = s.idx + 2) ∧
    ∃ t, e.cells[s.idx]? = some t ∧ (t.type = ty ∨ ty = .Identifier) := by
  unfold Parse.eat at h
  change (Res.ok (decide (s.idx ≠ e.num), s)).bind _ = _ at h
  rw [Res.ok_bind] at h
  dsimp only at h
  split at h
  · cases h
  · change (Res.bind (Res.bind (Res.ofOption e.cells[s.idx]?) _) _) = _ at h
    cases ht : e.cells[s.idx]? with
    | none => rw [ht] at h; cases h
    | some t =>
      rw [ht] at h
      simp only [Res.ok_bind, Res.ofOption] at h
      have hlt : s.idx < e.cells.length := by
        rcases Nat.lt_or_ge s.idx e.cells.length with hi | hi
        · exact hi
        · rw [List.getElem?_eq_none hi] at ht
          cases ht
      split at h
      · cases h
        exact ⟨hlt, rfl, rfl, .inl rfl, t, rfl, .inl ‹_›⟩
      · change Res.bind (Res.bind (e.bytes (.of t)) _) _ = _ at h
        obtain ⟨⟨a, s1⟩, h1, h2⟩ := Res.bind_eq_ok.mp h
        obtain ⟨b, hb, h1⟩ := Res.bind_eq_ok.mp h1
        cases h1
        change (if (Lex.lookupMacro e.ms a).any AsIdentifier = true then
          (if ty = .Identifier then P.set { s with idx := if isFmt t then s.idx + 2 else s.idx + 1 } else P.fail) else P.fail) e s = _ at h2
        split at h2
        · split at h2
          · cases h2
            refine ⟨hlt, rfl, rfl, ?_, t, rfl, .inr ‹_›⟩
            dsimp only
            split
            · exact .inr rfl
            · exact .inl rfl
          · cases h2
        · cases h2

theorem eat_hang {e : Env} {s : St} {ty : TokType} : Parse.eat ty e s ≠ .hang := by
  intro h
  unfold Parse.eat at h
  change (Res.ok (decide (s.idx ≠ e.num), s)).bind _ = _ at h
  rw [Res.ok_bind] at h
  dsimp only at h
  split at h
  · cases h
  · change (Res.bind (Res.bind (Res.ofOption e.cells[s.idx]?) _) _) = _ at h
    cases ht : e.cells[s.idx]? with
    | none => rw [ht] at h; cases h
    | some t =>
      rw [ht] at h
      simp only [Res.ok_bind, Res.ofOption] at h
      split at h
      · cases h
      · change Res.bind (Res.bind (e.bytes (.of t)) _) (fun r : Bytes × St => (if (Lex.lookupMacro e.ms r.1).any AsIdentifier = true then
            (if ty = .Identifier then P.set { s with idx := if isFmt t then s.idx + 2 else s.idx + 1 } else P.fail) else P.fail) e r.2) = _ at h
        cases hb : e.bytes (.of t) with
        | hang => unfold Env.bytes at hb; split at hb <;> (try split at hb) <;> cases hb
        | ok b =>
          rw [hb] at h
          simp only [Res.ok_bind] at h
          split at h
          · split at h <;> cases h
          · cases h
        | _ => rw [hb] at h; cases h

theorem eatK {ty : TokType} : Safe c k g h (eat ty) (Of fun _ => k < c.e.cells.length) Any := by
  apply pureWith
  · exact fun s h => (eat_hang h).elim
  · intro s a s' ho hk h
    obtain ⟨h1, h2, h3, h4, -⟩ := eat_ok h
    exact ⟨h2, h3, by omega, by omega, by omega, fun _ => by omega⟩

theorem eat {ty : TokType} : Safe c k g h (eat ty) Top Any := eatK.top


theorem eatAny : Safe c k g h eatAny Top Any := by
  unfold Parse.eatAny
  safe

theorem callerProc : Safe c k g h callerProc Top Never := by
  unfold Parse.callerProc
  refine bindN get fun s _ _ _ => ?_
  split <;> safe

theorem upToPrev {n : Nat} : Safe c k g h (upToPrev n) Top Never := by
  unfold Parse.upToPrev
  safe

theorem codeUntyped {b : Bytes} : Safe c k g h (P.code fun c h => untypedStr c h b) (c.Is [.Untyped]) Never :=
  code fun _ ho _ => untypedStr_makes ho
macro_rules | `(tactic| sother) => `(tactic| with_reducible exact Safe.codeUntyped)

theorem untyped {t : Txt} : Safe c k g h (untyped t) (c.Is [.Untyped]) Never := by
  unfold Parse.untyped
  safe

theorem stripped {b : Bytes} : Safe c k g h (stripped b) Top Never := res Strip.strip_ne_hang

theorem loopTop {step : σ → P (Bool × σ)} {x : σ} (hstep : ∀ x h', Grow h h' → Safe c k h' h' (step x) Top (fun r => r.1 = true)) :
    Safe c k g h (P.loop step x) Top Never :=
  loop (I := fun _ => True) trivial fun x h' hg _ => hstep x h' hg

macro_rules | `(tactic| sother) => `(tactic| ((with_reducible refine Safe.loopTop ?_); with_default intro _ _ _; safe; done))

theorem loopAny {step : σ → P (Bool × σ)} {x : σ} (hh : c.hangs) (hstep : ∀ x h', Grow h h' → Safe c k h' h' (step x) Top Never) :
    Safe c k g h (P.loop step x) Top Never := by
  have key : ∀ (fuel : Nat) (x : σ) (s : St), c.Ok s → k ≤ s.idx → Grow h s.heap → c.After h s Top Never (P.loopN step fuel x c.e s) := by
    intro fuel
    induction fuel with
    | zero => exact fun _ _ _ _ _ => hh
    | succ fuel ih =>
      intro x s ho hk hg
      show c.After h s Top Never ((step x c.e s).bind fun r => (if r.1.1 then P.loopN step fuel r.1.2 else Pure.pure r.1.2) c.e r.2)
      have hp := hstep x s.heap hg (Grow.refl _) s ho hk (Grow.refl _)
      revert hp
      cases step x c.e s with
      | ok r =>
        obtain ⟨⟨go, y⟩, s'⟩ := r
        rintro ⟨h1, h2, h3, h4, h5, h6⟩
        rw [Res.ok_bind]
        cases go with
        | false => exact ⟨h1, trivial, h3, h4, False.elim, hg.trans h6⟩
        | true =>
          have := ih y s' h1 (by omega) (hg.trans h6)
          show c.After h s Top Never (P.loopN step fuel y c.e s')
          revert this
          cases P.loopN step fuel y c.e s' with
          | ok r =>
            rintro ⟨g1, g2, g3, g4, -, g6⟩
            exact ⟨g1, g2, g3.trans h3, by omega, False.elim, g6⟩
          | _ => exact id
      | _ => exact id
  intro hg s ho hk hh
  have := key (c.e.cells.length + 2) x s ho hk hh
  show c.After g s Top Never (P.loopN step (c.e.cells.length + 2) x c.e s)
  revert this
  cases P.loopN step (c.e.cells.length + 2) x c.e s with
  | ok r => rintro ⟨h1, h2, h3, h4, h5, h6⟩; exact ⟨h1, h2, h3, h4, h5, hg.trans h6⟩
  | _ => exact id

theorem skipGroup {a b : TokType} : Safe c k g h (skipGroup a b) Top Never := by
  unfold Parse.skipGroup
  safe

theorem skipTo {a : TokType} : Safe c k g h (skipTo a) Top Never := by
  unfold Parse.skipTo
  safe

/-- The slots of a node that is made. -/
macro "srefs" : tactic => `(tactic| (refine slots_of ?_ ?_ ?_ ?_ ?_ ?_ ?_ ?_ <;> (try dsimp only) <;> sref))

macro_rules | `(tactic| sother) => `(tactic| with_reducible exact Safe.make (by with_default srefs))
/-- A change of fields other than the neighbours. -/
macro_rules | `(tactic| sother) => `(tactic| with_reducible exact Safe.upd (by sfr) (by
  with_default intro n hn; have hn := slots_to hn; obtain ⟨_, _, _, _, _, _, _, _⟩ := hn; srefs))

theorem comment : Safe c k g h comment (c.Is [.Comment]) Any := by
  unfold Parse.comment
  safe

theorem inlineCmt {t : Tok} : Safe c k g h (inlineCmt t) (c.Opt [.Comment]) Never := by
  unfold Parse.inlineCmt
  safe

theorem endStmt : Safe c k g h endStmt (c.Opt [.Comment]) Any := by
  unfold Parse.endStmt
  safe

theorem parseInclude : Safe c k g h parseInclude (c.Is [.Preprocess_Include]) Any := by
  unfold Parse.parseInclude
  safe

theorem pragma : Safe c k g h pragma (c.Is [.Preprocess_Pragma]) Any := by
  unfold Parse.pragma
  safe

theorem paramsAppend {r p : Nat} (hr : c.Solid r h) (hp : c.Item p h) : Safe c k g h (P.change fun h => Ast.paramsAppend h r p) Top Never :=
  change (V := Yes) fun _ ho hg => have hr := hr.grow hg; paramsAppend_keeps ho hr.1 hr.2.1 hr.2.2 (hp.grow hg)
macro_rules | `(tactic| sother) => `(tactic| with_reducible exact Safe.paramsAppend (by ssolid) (by sitem))

theorem bodyAppend {r p n : Nat} (hr : c.Solid r h) (hp : c.Mem p h) : Safe c k g h (P.change fun h => Ast.bodyAppend n h r p) Top Never :=
  change (V := Yes) fun _ ho hg => have hr := hr.grow hg; bodyAppend_keeps ho hr.1 hr.2.1 hr.2.2 (hp.grow hg)
macro_rules | `(tactic| sother) => `(tactic| with_reducible exact Safe.bodyAppend (by ssolid) (by smem))

end Safe
end Verif.Parse
