import Verif.Model.ParserApi
/-!
# A logic for the parsing functions

`Safe c k g h p V S`: started at an index of at least `k`, in a heap grown out of `h`, `p` does not run for ever (unless `c.hangs`); if it
succeeds, the nodes below `c.N` are still as they were, the scope stack is what it was, the index has not gone back, the heap has grown
out of `g`, the result satisfies `V`, and if it satisfies `S` the index has moved on.
-/
namespace Verif.Parse
open Verif.Lex (Tok)
open Verif.Ast

/-- The codes a node refers to, other than its neighbours in a list. -/
def slots (n : Node) : List Nat := [n.inlineCmt, n.attributes, n.specs, n.typ, n.params, n.body, n.suffix, n.parent]

/-- What is fixed during a parse. -/
structure Ctx where
  e : Env
  N : Nat
  base : Nat → Node
  hangs : Prop
  pos : 0 < N
  fatal : e.cfg.fatal = true
  tE : e.tEmpty < N
  consts : ∀ p ∈ e.constants, p ≠ e.tEmpty ∧ p < N ∧ (base p).parent ≠ 0 ∧ (base p).front = 0 ∧ (base p).back = 0 ∧
    isBodyType (base p).type = false ∧ (base p).type ≠ .Typename ∧ ∀ q ∈ (slots (base p)).dropLast, q = 0 ∨ q = e.tEmpty
  noOp : hangs ∨ ∀ t ∈ e.cells, t.type ≠ .Decl_Operator

variable {c : Ctx} {α β σ : Type}

/-- Null, or a node made in this parse. -/
def Ctx.Fr (c : Ctx) (p : Nat) : Prop := p = 0 ∨ c.N ≤ p

/-- Null, a node made in this parse, or a constant. -/
def Ctx.Ref (c : Ctx) (p : Nat) : Prop := c.Fr p ∨ p ∈ c.e.constants ∨ p = c.e.tEmpty

/-- Null, or not a type. -/
def NT (h : Heap) (p : Nat) : Prop := p = 0 ∨ (p < h.next ∧ (h.cell p).type ≠ .Typename)

/-- A node whose links stay among the nodes of this parse and the constants. -/
structure Ctx.Links (c : Ctx) (h : Heap) (n : Node) : Prop where
  slots : ∀ q ∈ slots n, c.Ref q
  front : c.Fr n.front
  back : c.Fr n.back
  nt : n.type ≠ .Typename → NT h n.front ∧ NT h n.back

/-- The nodes that were there are what they were, but for the parent of the empty type. -/
structure Ctx.HeapOk (c : Ctx) (h : Heap) : Prop where
  next : c.N ≤ h.next
  old : ∀ p, p < c.N → p ≠ c.e.tEmpty → h.cell p = c.base p
  empty : ∃ q, h.cell c.e.tEmpty = { c.base c.e.tEmpty with parent := q }
  links : ∀ p, c.N ≤ p → p < h.next → c.Links h (h.cell p)

/-- Nodes are made, and none changes its type; nor is a type linked to another. -/
structure Grow (h h' : Heap) : Prop where
  next : h.next ≤ h'.next
  type : ∀ p, p < h.next → (h'.cell p).type = (h.cell p).type
  back : ∀ p, p < h.next → (h.cell p).type = .Typename → (h'.cell p).back = (h.cell p).back

theorem Grow.refl (h : Heap) : Grow h h := ⟨Nat.le_refl _, fun _ _ => rfl, fun _ _ _ => rfl⟩

theorem Grow.trans {h1 h2 h3 : Heap} (a : Grow h1 h2) (b : Grow h2 h3) : Grow h1 h3 where
  next := Nat.le_trans a.next b.next
  type p hp := (b.type p (Nat.lt_of_lt_of_le hp a.next)).trans (a.type p hp)
  back p hp ht := (b.back p (Nat.lt_of_lt_of_le hp a.next) ((a.type p hp).trans ht)).trans (a.back p hp ht)

structure Ctx.Ok (c : Ctx) (s : St) : Prop where
  heap : c.HeapOk s.heap
  idx : s.idx ≤ c.e.cells.length + 1

/-- The outcome of a call that began in `s`. -/
def Ctx.After (c : Ctx) (g : Heap) (s : St) (V : α → Heap → Prop) (S : α → Prop) : Res (α × St) → Prop
  | .ok (a, s') => c.Ok s' ∧ V a s'.heap ∧ s'.scope = s.scope ∧ s.idx ≤ s'.idx ∧ (S a → s.idx < s'.idx) ∧ Grow g s'.heap
  | .hang => c.hangs
  | _ => True

def Safe (c : Ctx) (k : Nat) (g h : Heap) (p : P α) (V : α → Heap → Prop) (S : α → Prop) : Prop :=
  Grow g h → ∀ s, c.Ok s → k ≤ s.idx → Grow h s.heap → c.After g s V S (p c.e s)

/-- No condition. -/
@[reducible] def Top : α → Heap → Prop := fun _ _ => True
/-- Always moves on. -/
def Any : α → Prop := fun _ => True
/-- Never moves on, as far as is known. -/
def Never : α → Prop := fun _ => False

/-- A condition that does not look at the heap. -/
@[reducible] def Of (p : α → Prop) : α → Heap → Prop := fun a _ => p a

/-- A node made in this parse, of one of these types. -/
def Ctx.Is (c : Ctx) (ts : List CodeType) (p : Nat) (h : Heap) : Prop := c.N ≤ p ∧ p < h.next ∧ (h.cell p).type ∈ ts

theorem Ctx.Is.grow {ts : List CodeType} {p : Nat} {h h' : Heap} (i : c.Is ts p h) (g : Grow h h') : c.Is ts p h' :=
  ⟨i.1, Nat.lt_of_lt_of_le i.2.1 g.next, (g.type p i.2.1) ▸ i.2.2⟩

theorem Ctx.Is.mono {ts ts' : List CodeType} {p : Nat} {h : Heap} (i : c.Is ts p h) (hs : ∀ t ∈ ts, t ∈ ts') : c.Is ts' p h :=
  ⟨i.1, i.2.1, hs _ i.2.2⟩

theorem Ctx.Is.fr {ts : List CodeType} {p : Nat} {h : Heap} (i : c.Is ts p h) : c.Fr p := .inr i.1
theorem Ctx.Is.ref {ts : List CodeType} {p : Nat} {h : Heap} (i : c.Is ts p h) : c.Ref p := .inl i.fr
theorem Ctx.Is.ne {ts : List CodeType} {p : Nat} {h : Heap} (i : c.Is ts p h) : p ≠ 0 := by have := i.1; have := c.pos; omega
theorem Ctx.Fr.ref {p : Nat} (i : c.Fr p) : c.Ref p := .inl i
theorem Ctx.fr_zero : c.Fr 0 := .inl rfl
theorem Ctx.ref_zero : c.Ref 0 := .inl (.inl rfl)

namespace Safe
variable {k : Nat} {g h : Heap} {p : P α} {V V' : α → Heap → Prop} {S S' : α → Prop} {W : β → Heap → Prop} {T : β → Prop}

theorem mono (hp : Safe c k g h p V S) (hv : ∀ a h', Grow h h' → V a h' → V' a h') (hs : ∀ a, S' a → S a) (hgh : g = h) : Safe c k g h p V' S' := by
  subst hgh
  intro hg s ho hk hh
  have := hp hg s ho hk hh
  revert this
  cases p c.e s with
  | ok r => rintro ⟨h1, h2, h3, h4, h5, h6⟩; exact ⟨h1, hv _ _ h6 h2, h3, h4, fun x => h5 (hs _ x), h6⟩
  | _ => exact id

theorem lift (hp : ∀ h, Safe c k h h p V S) : Safe c k g h p V S := by
  intro hg s ho hk hh
  have := hp s.heap (Grow.refl _) s ho hk (Grow.refl _)
  revert this
  cases p c.e s with
  | ok r => rintro ⟨h1, h2, h3, h4, h5, h6⟩; exact ⟨h1, h2, h3, h4, h5, (hg.trans hh).trans h6⟩
  | _ => exact id

theorem weak {k' : Nat} (hp : Safe c k g h p V S) (hk : k ≤ k') : Safe c k' g h p V S := fun hg s ho h' => hp hg s ho (Nat.le_trans hk h')

theorem imp (hp : Safe c k g h p V S) (hv : ∀ a h', V a h' → V' a h') (hs : ∀ a, S' a → S a) : Safe c k g h p V' S' := by
  intro hg s ho hk hh
  have := hp hg s ho hk hh
  revert this
  cases p c.e s with
  | ok r => rintro ⟨h1, h2, h3, h4, h5, h6⟩; exact ⟨h1, hv _ _ h2, h3, h4, fun x => h5 (hs _ x), h6⟩
  | _ => exact id

theorem never (hp : Safe c k g h p V S) : Safe c k g h p V Never := hp.imp (fun _ _ h => h) (fun _ h => h.elim)
theorem strict (hp : Safe c k g h p V Any) : Safe c k g h p V S := hp.imp (fun _ _ h => h) (fun _ _ => trivial)
theorem top (hp : Safe c k g h p V S) : Safe c k g h p Top S := hp.imp (fun _ _ _ => trivial) (fun _ h => h)

theorem bindS {f : α → P β} (hp : Safe c k h h p V Any)
    (hf : ∀ a h', Grow h h' → V a h' → Safe c (k + 1) g h' (f a) W Never) : Safe c k g h (p >>= f) W T := by
  intro hg s ho hk hh
  show c.After g s W T ((p c.e s).bind fun r => f r.1 c.e r.2)
  have hp := hp (Grow.refl _) s ho hk hh
  revert hp
  cases p c.e s with
  | ok r =>
    obtain ⟨a, s'⟩ := r
    rintro ⟨h1, h2, h3, h4, h5, h6⟩
    have h5 := h5 trivial
    have := hf a s'.heap h6 h2 (hg.trans h6) s' h1 (by omega) (Grow.refl _)
    revert this
    rw [Res.ok_bind]
    cases f a c.e s' with
    | ok r =>
      rintro ⟨g1, g2, g3, g4, -, g6⟩
      exact ⟨g1, g2, g3.trans h3, by omega, fun _ => by omega, g6⟩
    | _ => exact id
  | _ => exact id

theorem bindN {f : α → P β} (hp : Safe c k h h p V Never)
    (hf : ∀ a h', Grow h h' → V a h' → Safe c k g h' (f a) W T) : Safe c k g h (p >>= f) W T := by
  intro hg s ho hk hh
  show c.After g s W T ((p c.e s).bind fun r => f r.1 c.e r.2)
  have hp := hp (Grow.refl _) s ho hk hh
  revert hp
  cases p c.e s with
  | ok r =>
    obtain ⟨a, s'⟩ := r
    rintro ⟨h1, h2, h3, h4, -, h6⟩
    have := hf a s'.heap h6 h2 (hg.trans h6) s' h1 (by omega) (Grow.refl _)
    revert this
    rw [Res.ok_bind]
    cases f a c.e s' with
    | ok r =>
      rintro ⟨g1, g2, g3, g4, g5, g6⟩
      exact ⟨g1, g2, g3.trans h3, by omega, fun t => by have := g5 t; omega, g6⟩
    | _ => exact id
  | _ => exact id

/-- A call that moves on for some results. -/
theorem bindC {f : α → P β} (hp : Safe c k h h p V S)
    (hs : ∀ a h', Grow h h' → V a h' → S a → Safe c (k + 1) g h' (f a) W Never)
    (hn : ∀ a h', Grow h h' → V a h' → ¬ S a → Safe c k g h' (f a) W T) : Safe c k g h (p >>= f) W T := by
  intro hg s ho hk hh
  show c.After g s W T ((p c.e s).bind fun r => f r.1 c.e r.2)
  have hp := hp (Grow.refl _) s ho hk hh
  revert hp
  cases p c.e s with
  | ok r =>
    obtain ⟨a, s'⟩ := r
    rintro ⟨h1, h2, h3, h4, h5, h6⟩
    rw [Res.ok_bind]
    by_cases hS : S a
    · have h5 := h5 hS
      have := hs a s'.heap h6 h2 hS (hg.trans h6) s' h1 (by omega) (Grow.refl _)
      revert this
      cases f a c.e s' with
      | ok r =>
        rintro ⟨g1, g2, g3, g4, -, g6⟩
        exact ⟨g1, g2, g3.trans h3, by omega, fun _ => by omega, g6⟩
      | _ => exact id
    · have := hn a s'.heap h6 h2 hS (hg.trans h6) s' h1 (by omega) (Grow.refl _)
      revert this
      cases f a c.e s' with
      | ok r =>
        rintro ⟨g1, g2, g3, g4, g5, g6⟩
        exact ⟨g1, g2, g3.trans h3, by omega, fun t => by have := g5 t; omega, g6⟩
      | _ => exact id
  | _ => exact id

/-- A call that may change what has been made since `g`. -/
theorem bindG {f : α → P β} (hp : Safe c k g h p V Never)
    (hf : ∀ a h', Grow g h' → V a h' → Safe c k g h' (f a) W T) : Safe c k g h (p >>= f) W T := by
  intro hg s ho hk hh
  show c.After g s W T ((p c.e s).bind fun r => f r.1 c.e r.2)
  have hp := hp hg s ho hk hh
  revert hp
  cases p c.e s with
  | ok r =>
    obtain ⟨a, s'⟩ := r
    rintro ⟨h1, h2, h3, h4, -, h6⟩
    have := hf a s'.heap h6 h2 h6 s' h1 (by omega) (Grow.refl _)
    revert this
    rw [Res.ok_bind]
    cases f a c.e s' with
    | ok r =>
      rintro ⟨g1, g2, g3, g4, g5, g6⟩
      exact ⟨g1, g2, g3.trans h3, by omega, fun t => by have := g5 t; omega, g6⟩
    | _ => exact id
  | _ => exact id

theorem bindST {f : α → P β} {q : α → Prop} (hp : Safe c k h h p (Of q) Any) (hf : ∀ a, q a → Safe c (k + 1) g h (f a) W Never) :
    Safe c k g h (p >>= f) W T := by
  intro hg s ho hk hh
  show c.After g s W T ((p c.e s).bind fun r => f r.1 c.e r.2)
  have hp := hp (Grow.refl _) s ho hk hh
  revert hp
  cases p c.e s with
  | ok r =>
    obtain ⟨a, s'⟩ := r
    rintro ⟨h1, h2, h3, h4, h5, h6⟩
    have h5 := h5 trivial
    have := hf a h2 hg s' h1 (by omega) h6
    revert this
    rw [Res.ok_bind]
    cases f a c.e s' with
    | ok r =>
      rintro ⟨g1, g2, g3, g4, -, g6⟩
      exact ⟨g1, g2, g3.trans h3, by omega, fun _ => by omega, g6⟩
    | _ => exact id
  | _ => exact id

theorem bindNT {f : α → P β} {q : α → Prop} (hp : Safe c k h h p (Of q) Never) (hf : ∀ a, q a → Safe c k g h (f a) W T) :
    Safe c k g h (p >>= f) W T := by
  intro hg s ho hk hh
  show c.After g s W T ((p c.e s).bind fun r => f r.1 c.e r.2)
  have hp := hp (Grow.refl _) s ho hk hh
  revert hp
  cases p c.e s with
  | ok r =>
    obtain ⟨a, s'⟩ := r
    rintro ⟨h1, h2, h3, h4, -, h6⟩
    have := hf a h2 hg s' h1 (by omega) h6
    revert this
    rw [Res.ok_bind]
    cases f a c.e s' with
    | ok r =>
      rintro ⟨g1, g2, g3, g4, g5, g6⟩
      exact ⟨g1, g2, g3.trans h3, by omega, fun t => by have := g5 t; omega, g6⟩
    | _ => exact id
  | _ => exact id

theorem bindS0 {f : α → P β} (hp : Safe c k h h p Top Any) (hf : ∀ a, Safe c (k + 1) g h (f a) W Never) : Safe c k g h (p >>= f) W T :=
  bindST (q := fun _ => True) hp fun a _ => hf a

theorem bindN0 {f : α → P β} (hp : Safe c k h h p Top Never) (hf : ∀ a, Safe c k g h (f a) W T) : Safe c k g h (p >>= f) W T :=
  bindNT (q := fun _ => True) hp fun a _ => hf a

theorem bindP {f : α → P β} {a : α} (hf : Safe c k g h (f a) W T) : Safe c k g h (Pure.pure a >>= f) W T := hf

theorem pureH {a : α} (hv : ∀ h', Grow h h' → V a h') (hs : ¬ S a) : Safe c k g h (Pure.pure a) V S :=
  fun hg _ ho _ hh => ⟨ho, hv _ hh, rfl, Nat.le_refl _, fun h => (hs h).elim, hg.trans hh⟩

theorem pure {q : α → Prop} {a : α} (hv : q a) (hs : ¬ S a) : Safe c k g h (Pure.pure a) (Of q) S := pureH (fun _ _ => hv) hs

theorem fail : Safe c k g h (P.fail : P α) V S := fun _ _ _ _ _ => trivial
theorem ub : Safe c k g h (P.ub : P α) V S := fun _ _ _ _ _ => trivial
theorem hang (hh : c.hangs) : Safe c k g h (P.hang : P α) V S := fun _ _ _ _ _ => hh

theorem ite {b : Prop} [Decidable b] {q : P α} (hp : b → Safe c k g h p V S) (hq : ¬ b → Safe c k g h q V S) :
    Safe c k g h (if b then p else q) V S := by
  split
  · exact hp ‹_›
  · exact hq ‹_›

theorem env : Safe c k g h P.env (Of (· = c.e)) Never := fun hg _ ho _ hh => ⟨ho, rfl, rfl, Nat.le_refl _, False.elim, hg.trans hh⟩

theorem bindEnv {f : Env → P β} (hf : Safe c k g h (f c.e) W T) : Safe c k g h (P.env >>= f) W T := hf

theorem bindFail {f : α → P β} : Safe c k g h (P.fail >>= f) W T := fun _ _ _ _ _ => trivial
theorem bindUb {f : α → P β} : Safe c k g h (P.ub >>= f) W T := fun _ _ _ _ _ => trivial

theorem get : Safe c k g h P.get (Of fun s => k ≤ s.idx ∧ c.Ok s) Never :=
  fun hg _ ho hk hh => ⟨ho, ⟨hk, ho⟩, rfl, Nat.le_refl _, False.elim, hg.trans hh⟩

theorem res {x : Res α} (hx : x ≠ .hang) : Safe c k g h (P.res x) Top Never := by
  intro hg s ho hk hh
  show c.After g s Top Never (x.bind fun a => .ok (a, s))
  cases x with
  | ok a => exact ⟨ho, trivial, rfl, Nat.le_refl _, False.elim, hg.trans hh⟩
  | hang => exact (hx rfl).elim
  | _ => trivial

theorem ofOption {x : Option α} : Safe c k g h (fun _ s => (Res.ofOption x).bind fun a => .ok (a, s)) Top Never := by
  intro hg s ho hk hh
  cases x with
  | some a => exact ⟨ho, trivial, rfl, Nat.le_refl _, False.elim, hg.trans hh⟩
  | none => trivial

theorem loopN {step : σ → P (Bool × σ)} {I : σ → Heap → Prop} (hI : ∀ x h h', Grow h h' → I x h → I x h')
    (hstep : ∀ x h', Grow h h' → I x h' → Safe c k h' h' (step x) (fun r h => I r.2 h) (fun r => r.1 = true)) :
    ∀ (fuel : Nat) (x : σ) (s : St), I x s.heap → c.Ok s → k ≤ s.idx → c.e.cells.length + 1 < fuel + s.idx → Grow h s.heap →
      c.After h s I Never (P.loopN step fuel x c.e s) := by
  intro fuel
  induction fuel with
  | zero =>
    intro x s hx ho hk hf
    have := ho.idx
    omega
  | succ fuel ih =>
    intro x s hx ho hk hf hh
    show c.After h s I Never ((step x c.e s).bind fun r => (if r.1.1 then P.loopN step fuel r.1.2 else Pure.pure r.1.2) c.e r.2)
    have hp := hstep x s.heap hh hx (Grow.refl _) s ho hk (Grow.refl _)
    revert hp
    cases step x c.e s with
    | ok r =>
      obtain ⟨⟨go, y⟩, s'⟩ := r
      rintro ⟨h1, h2, h3, h4, h5, h6⟩
      rw [Res.ok_bind]
      cases go with
      | false => exact ⟨h1, h2, h3, h4, False.elim, hh.trans h6⟩
      | true =>
        have h5 := h5 rfl
        have := ih y s' h2 h1 (by omega) (by omega) (hh.trans h6)
        show c.After h s I Never (P.loopN step fuel y c.e s')
        revert this
        cases P.loopN step fuel y c.e s' with
        | ok r =>
          rintro ⟨g1, g2, g3, g4, -, g6⟩
          exact ⟨g1, g2, g3.trans h3, by omega, False.elim, g6⟩
        | _ => exact id
    | _ => exact id

theorem loopH {step : σ → P (Bool × σ)} {I : σ → Heap → Prop} {x : σ} (hI : ∀ x h h', Grow h h' → I x h → I x h') (hx : I x h)
    (hstep : ∀ x h', Grow h h' → I x h' → Safe c k h' h' (step x) (fun r h => I r.2 h) (fun r => r.1 = true)) :
    Safe c k g h (P.loop step x) I Never := by
  intro hg s ho hk hh
  have := loopN hI hstep (c.e.cells.length + 2) x s (hI _ _ _ hh hx) ho hk (by omega) hh
  show c.After g s I Never (P.loopN step (c.e.cells.length + 2) x c.e s)
  revert this
  cases P.loopN step (c.e.cells.length + 2) x c.e s with
  | ok r => rintro ⟨h1, h2, h3, h4, h5, h6⟩; exact ⟨h1, h2, h3, h4, h5, hg.trans h6⟩
  | _ => exact id

theorem loop {step : σ → P (Bool × σ)} {I : σ → Prop} {x : σ} (hx : I x)
    (hstep : ∀ x h', Grow h h' → I x → Safe c k h' h' (step x) (Of fun r => I r.2) (fun r => r.1 = true)) :
    Safe c k g h (P.loop step x) (Of I) Never :=
  loopH (fun _ _ _ _ h => h) hx hstep

theorem inScope {proc : Bytes} (hp : Safe c k g h p V S) : Safe c k g h (Parse.inScope proc p) V S := by
  intro hg s ho hk hh
  have := hp hg { s with scope := proc :: s.scope } ⟨ho.heap, ho.idx⟩ hk hh
  show c.After g s V S ((p c.e { s with scope := proc :: s.scope }).bind fun r => .ok (r.1, { r.2 with scope := r.2.scope.tail }))
  revert this
  cases p c.e { s with scope := proc :: s.scope } with
  | ok r =>
    rintro ⟨h1, h2, h3, h4, h5, h6⟩
    refine ⟨⟨h1.heap, h1.idx⟩, h2, ?_, h4, h5, h6⟩
    show r.2.scope.tail = s.scope
    rw [h3]
    rfl
  | _ => exact id

/-- A function that changes nothing but the index. -/
theorem pureWith {f : P α} {q : α → Prop} (hx : ∀ s, f c.e s = .hang → c.hangs)
    (h' : ∀ s a s', c.Ok s → k ≤ s.idx → f c.e s = .ok (a, s') → s'.heap = s.heap ∧ s'.scope = s.scope ∧ s.idx ≤ s'.idx ∧
      s'.idx ≤ c.e.cells.length + 1 ∧ q a ∧ (S a → s.idx < s'.idx)) : Safe c k g h f (Of q) S := by
  intro hg s ho hk hh
  have hx := hx s
  have h' := h' s
  cases hf : f c.e s with
  | ok r =>
    obtain ⟨h1, h2, h3, h4, h5, h6⟩ := h' r.1 r.2 ho hk hf
    exact ⟨⟨h1 ▸ ho.heap, h4⟩, h5, h2, h3, h6, h1 ▸ hg.trans hh⟩
  | hang => exact hx hf
  | _ => trivial

end Safe

/-! ## Tokens -/

theorem skipFmt_bound {q : Tok → Bool} : ∀ {l : List Tok} {i : Nat} {t : Tok} {j : Nat}, skipFmt q l i = .ok (t, j) → i ≤ j ∧ j < i + l.length ∧ t ∈ l
  | [], _, _, _, h => nomatch h
  | u :: l, i, t, j, h => by
    unfold skipFmt at h
    split at h
    · have := skipFmt_bound h
      exact ⟨by omega, by simp only [List.length_cons]; omega, List.mem_cons_of_mem _ this.2.2⟩
    · injection h with h
      injection h with h1 h2
      subst h1 h2
      exact ⟨Nat.le_refl _, by simp, List.mem_cons_self⟩

theorem skipFmt_hang {q : Tok → Bool} : ∀ {l : List Tok} {i : Nat}, skipFmt q l i ≠ .hang
  | [], _, h => nomatch h
  | u :: l, i, h => by
    unfold skipFmt at h
    split at h
    · exact skipFmt_hang h
    · cases h

namespace Safe
variable {k : Nat} {g h : Heap}

theorem curV : Safe c k g h cur (Of (· ∈ c.e.cells)) Never := by
  apply pureWith
  · intro s h
    unfold cur at h
    cases hs : skipFmt isFmt (c.e.cells.drop s.idx) s.idx with
    | hang => exact (skipFmt_hang hs).elim
    | _ => rw [hs] at h; cases h
  · intro s a s' ho hk h
    unfold cur at h
    obtain ⟨r, hr, h⟩ := Res.bind_eq_ok.mp h
    cases h
    have := skipFmt_bound hr
    rw [List.length_drop] at this
    exact ⟨rfl, rfl, this.1, by show r.2 ≤ _; omega, List.mem_of_mem_drop this.2.2, False.elim⟩

theorem cur : Safe c k g h cur Top Never := curV.top

theorem curN : Safe c k g h curN Top Never := by
  intro hg s ho hk hh
  exact ofOption hg s ho hk hh

theorem prev : Safe c k g h prev Top Never := by
  intro hg s ho hk hh
  show c.After g s Top Never (if s.idx = 0 then .ub else _)
  split
  · trivial
  · exact ofOption hg s ho hk hh

theorem peek : Safe c k g h peek Top Never := by
  intro hg s ho hk hh
  show c.After g s Top Never ((skipFmt _ _ _).bind _)
  cases hs : skipFmt (·.type = .NewLine) (c.e.cells.drop s.idx) s.idx with
  | hang => exact (skipFmt_hang hs).elim
  | ok r => exact ⟨ho, trivial, rfl, Nat.le_refl _, False.elim, hg.trans hh⟩
  | _ => trivial

theorem next : Safe c k g h next Top Never := by
  intro hg s ho hk hh
  show c.After g s Top Never ((skipFmt _ _ _).bind _)
  cases hs : skipFmt (·.type = .NewLine) (c.e.cells.drop s.idx) s.idx with
  | hang => exact (skipFmt_hang hs).elim
  | ok r => exact ofOption hg s ho hk hh
  | _ => trivial

theorem tokAt {i : Nat} : Safe c k g h (tokAt i) Top Never := fun hg s ho hk hh => ofOption hg s ho hk hh
theorem chr {t : Tok} {i : Nat} : Safe c k g h (chr t i) Top Never := fun hg s ho hk hh => ofOption hg s ho hk hh
theorem left : Safe c k g h left Top Never := fun hg s ho _ hh => ⟨ho, trivial, rfl, Nat.le_refl _, False.elim, hg.trans hh⟩

theorem bytes {t : Txt} : Safe c k g h (bytes t) Top Never := by
  intro hg s ho hk hh
  show c.After g s Top Never ((c.e.bytes t).bind _)
  unfold Env.bytes
  split
  · exact ⟨ho, trivial, rfl, Nat.le_refl _, False.elim, hg.trans hh⟩
  · split
    · trivial
    · exact ⟨ho, trivial, rfl, Nat.le_refl _, False.elim, hg.trans hh⟩

theorem macroOf {b : Bytes} : Safe c k g h (macroOf b) Top Never := fun hg _ ho _ hh => ⟨ho, trivial, rfl, Nat.le_refl _, False.elim, hg.trans hh⟩

theorem node {p : Nat} : Safe c k g h (P.node p) Top Never := by
  intro hg s ho hk hh
  show c.After g s Top Never ((s.heap.get p).bind _)
  unfold Heap.get
  split
  · exact ⟨ho, trivial, rfl, Nat.le_refl _, False.elim, hg.trans hh⟩
  · trivial

end Safe

end Verif.Parse
