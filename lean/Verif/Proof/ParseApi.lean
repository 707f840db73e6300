import Verif.Proof.ParseRec
import Verif.Props.ParseSpec
import Verif.Props.Lexer
/-!
# The public functions
-/
namespace Verif.Parse
open Verif.Lex (Tok)
open Verif.Ast

theorem slots_cases {P : Nat → Prop} {n : Node} (h : P n.inlineCmt ∧ P n.attributes ∧ P n.specs ∧ P n.typ ∧ P n.params ∧ P n.body ∧ P n.suffix) :
    ∀ q ∈ (slots n).dropLast, P q := by
  intro q hq
  simp only [slots, List.dropLast, List.mem_cons, List.not_mem_nil, or_false] at hq
  obtain ⟨h1, h2, h3, h4, h5, h6, h7⟩ := h
  rcases hq with rfl | rfl | rfl | rfl | rfl | rfl | rfl <;> assumption

/-- What is fixed while this content is parsed. -/
def World.ctx (w : World) (hw : w.Ready) (hangs : Prop) (hn : hangs ∨ ∀ t ∈ w.env.cells, t.type ≠ .Decl_Operator) : Ctx where
  e := w.env
  N := w.heap.next
  base := w.heap.cell
  hangs := hangs
  pos := hw.started
  fatal := hw.fatal
  tE := hw.empty
  consts p hp := by
    have i := hw.constants p hp
    refine ⟨i.other, i.made, i.global, i.single.1, i.single.2, i.kind.1, i.kind.2, ?_⟩
    obtain ⟨h1, h2, h3, h4, h5, h6, h7⟩ := i.leaf
    exact slots_cases (P := fun q => q = 0 ∨ q = w.env.tEmpty) ⟨.inl h1, .inl h2, .inl h3, h4, .inl h5, .inl h6, .inl h7⟩
  noOp := hn

/-- What a parse has done when it succeeds. -/
structure Parsed (w w' : World) : Prop where
  next : w.heap.next ≤ w'.heap.next
  kept : UntouchedButEmpty w w'
  apart : ∀ p, Made w w' p → ∀ q ∈ links (w'.heap.cell p), q = 0 ∨ w.heap.next ≤ q ∨ q ∈ w.env.constants ∨ q = w.env.tEmpty
  scope : w'.scope = w.scope
  consts : w'.env.constants = w.env.constants ∧ w'.env.tEmpty = w.env.tEmpty ∧ w'.env.cfg = w.env.cfg
  index : ∀ i, w'.idx = some i → i ≤ w'.env.cells.length + 1

theorem Parsed.refl {w : World} (hw : w.Ready) : Parsed w w where
  next := Nat.le_refl _
  kept := ⟨fun _ _ _ => rfl, _, rfl⟩
  apart p hp := by have := hp.1; have := hp.2; omega
  scope := rfl
  consts := ⟨rfl, rfl, rfl⟩
  index := hw.index

theorem Parsed.ready {w w' : World} (i : Parsed w w') (hw : w.Ready) : w'.Ready where
  fatal := by rw [i.consts.2.2]; exact hw.fatal
  started := Nat.lt_of_lt_of_le hw.started i.next
  index := i.index
  empty := by rw [i.consts.2.1]; exact Nat.lt_of_lt_of_le hw.empty i.next
  constants p hp := by
    rw [i.consts.1] at hp
    have c := hw.constants p hp
    have e := i.kept.1 p c.made c.other
    exact ⟨Nat.lt_of_lt_of_le c.made i.next, by rw [i.consts.2.1]; exact c.other, by rw [e]; exact c.global, by rw [e]; exact c.single,
      by rw [e]; exact c.kind, by rw [e, i.consts.2.1]; exact c.leaf⟩

theorem Parsed.trans {w w' w'' : World} (hw : w.Ready) (i : Parsed w w') (j : Parsed w' w'') : Parsed w w'' where
  next := Nat.le_trans i.next j.next
  kept := by
    obtain ⟨q, hq⟩ := i.kept.2
    obtain ⟨r, hr⟩ := j.kept.2
    refine ⟨fun p hp hpe => (j.kept.1 p (Nat.lt_of_lt_of_le hp i.next) (by rw [i.consts.2.1]; exact hpe)).trans (i.kept.1 p hp hpe), r, ?_⟩
    rw [i.consts.2.1] at hr
    rw [hr, hq]
  apart p hp q hq := by
    rcases Nat.lt_or_ge p w'.heap.next with hlt | hge
    · have e := j.kept.1 p hlt (by rw [i.consts.2.1]; have := hp.1; have := hw.empty; omega)
      rw [e] at hq
      exact i.apart p ⟨hp.1, hlt⟩ q hq
    · have := j.apart p ⟨hge, hp.2⟩ q hq
      rw [i.consts.1, i.consts.2.1] at this
      rcases this with h | h | h | h
      · exact .inl h
      · exact .inr (.inl (Nat.le_trans i.next h))
      · exact .inr (.inr (.inl h))
      · exact .inr (.inr (.inr h))
  scope := j.scope.trans i.scope
  consts := ⟨j.consts.1.trans i.consts.1, j.consts.2.1.trans i.consts.2.1, j.consts.2.2.trans i.consts.2.2⟩
  index := j.index

/-- The outcome of a call. -/
def Outcome {α : Type} (w : World) (hangs : Prop) (V : α → World → Prop) : Res (α × World) → Prop
  | .ok (a, w') => Parsed w w' ∧ V a w'
  | .hang => hangs
  | _ => True

theorem Outcome.from {α : Type} {w w1 : World} {hangs : Prop} {V : α → World → Prop} {r : Res (α × World)} (hw : w.Ready) (i : Parsed w w1)
    (h : Outcome w1 hangs V r) : Outcome w hangs V r := by
  cases r with
  | ok r => exact ⟨i.trans hw h.1, h.2⟩
  | hang => exact h
  | _ => trivial

/-- The outcome of a call, in the terms of the logic. -/
def Called {α : Type} (c : Ctx) (w : World) (V : α → Heap → Prop) : Res (α × World) → Prop
  | .ok (a, w') => c.HeapOk w'.heap ∧ V a w'.heap ∧ w'.scope = w.scope ∧ w'.env = w.env ∧ Grow w.heap w'.heap ∧
      ∀ i, w'.idx = some i → i ≤ w'.env.cells.length + 1
  | .hang => c.hangs
  | _ => True

theorem call_after {α : Type} {c : Ctx} {w : World} (he : c.e = w.env) (hh : c.HeapOk w.heap) (hi : ∀ i, w.idx = some i → i ≤ w.env.cells.length + 1)
    {p : P α} {V : α → Heap → Prop} {S : α → Prop} (hp : Safe c 0 w.heap w.heap p V S) : Called c w V (w.call p) := by
  unfold World.call
  split
  · trivial
  · rename_i i hx
    have := hp (Grow.refl _) ⟨i, w.heap, w.scope⟩ ⟨hh, by rw [he]; exact hi i hx⟩ (Nat.zero_le _) (Grow.refl _)
    rw [he] at this
    revert this
    cases p w.env ⟨i, w.heap, w.scope⟩ with
    | ok r =>
      obtain ⟨a, s⟩ := r
      rintro ⟨h1, h2, h3, h4, h5, h6⟩
      refine ⟨h1.heap, h2, h3, rfl, h6, fun j hj => ?_⟩
      cases hj
      have := h1.idx
      rw [he] at this
      exact this
    | hang => exact id
    | _ => exact id

theorem ctx_start {w : World} (hw : w.Ready) {hangs : Prop} (hn : hangs ∨ ∀ t ∈ w.env.cells, t.type ≠ .Decl_Operator) :
    (w.ctx hw hangs hn).HeapOk w.heap where
  next := Nat.le_refl _
  old _ _ _ := rfl
  empty := ⟨_, rfl⟩
  links p h1 h2 := by
    have h1 : w.heap.next ≤ p := h1
    omega

theorem ctx_parsed {w w' : World} (hw : w.Ready) {hangs : Prop} (hn : hangs ∨ ∀ t ∈ w.env.cells, t.type ≠ .Decl_Operator)
    (hh : (w.ctx hw hangs hn).HeapOk w'.heap) (hs : w'.scope = w.scope) (he : w'.env = w.env)
    (hi : ∀ i, w'.idx = some i → i ≤ w'.env.cells.length + 1) : Parsed w w' where
  next := hh.next
  kept := ⟨hh.old, hh.empty⟩
  apart p hp q hq := by
    have hl := hh.links p hp.1 hp.2
    have hf : ∀ q, (w.ctx hw hangs hn).Fr q → q = 0 ∨ w.heap.next ≤ q ∨ q ∈ w.env.constants ∨ q = w.env.tEmpty :=
      fun q hq => hq.imp id .inl
    have hs : ∀ q ∈ slots (w'.heap.cell p), q = 0 ∨ w.heap.next ≤ q ∨ q ∈ w.env.constants ∨ q = w.env.tEmpty := by
      intro q hq
      rcases hl.slots q hq with h | h
      · exact hf q h
      · exact .inr (.inr h)
    rw [show links (w'.heap.cell p) = slots (w'.heap.cell p) ++ [(w'.heap.cell p).front, (w'.heap.cell p).back] from rfl, List.mem_append] at hq
    rcases hq with hq | hq
    · exact hs q hq
    · simp only [List.mem_cons, List.not_mem_nil, or_false] at hq
      rcases hq with rfl | rfl
      · exact hf _ hl.front
      · exact hf _ hl.back
  scope := hs
  consts := by rw [he]; exact ⟨rfl, rfl, rfl⟩
  index := hi

theorem lex_parsed {w w1 : World} {d : Bytes} (hw : w.Ready) (h : w.lex d = .ok (some w1)) : Parsed w w1 ∧ w1.heap = w.heap := by
  unfold World.lex at h
  obtain ⟨r, hr, h⟩ := Res.bind_eq_ok.mp h
  cases r with
  | none => cases h
  | some r =>
    cases h
    refine ⟨⟨Nat.le_refl _, ⟨fun _ _ _ => rfl, _, rfl⟩, fun p hp => by have h1 := hp.1; have h2 : p < w.heap.next := hp.2; omega,
      rfl, ⟨rfl, rfl, rfl⟩, fun i hi => ?_⟩, rfl⟩
    have := hw.index i hi
    show i ≤ (_ ++ _ : List Tok).length + 1
    simp only [List.length_append, List.length_map, List.length_drop]
    omega

/-- The result of a parse: a code it has made, or the invalid one. -/
def Result (w : World) (ts : List CodeType) (p : Nat) (w' : World) : Prop :=
  (Made w w' p ∧ (w'.heap.cell p).type ∈ ts) ∨ p = w.env.cfg.invalid

theorem begin_outcome {w : World} {d : Bytes} (hw : w.Ready) {hangs : Prop} {ts : List CodeType} {k : World → Res (Nat × World)}
    (hk : ∀ w1, w.lex d = .ok (some w1) → Parsed w w1 → w1.heap = w.heap → Outcome w1 hangs (Result w1 ts) (k w1)) :
    Outcome w hangs (Result w ts) (w.begin d k) := by
  unfold World.begin
  split
  · trivial
  · cases hl : w.lex d with
    | ok r =>
      cases r with
      | none => exact ⟨.refl hw, .inr rfl⟩
      | some w1 =>
        have ⟨i, hh⟩ := lex_parsed hw hl
        have := (hk w1 hl i hh).from hw i
        revert this
        show Outcome w hangs (Result w1 ts) (k w1) → Outcome w hangs (Result w ts) (k w1)
        cases k w1 with
        | ok r =>
          rintro ⟨h1, h2⟩
          refine ⟨h1, ?_⟩
          rcases h2 with h2 | h2
          · exact .inl ⟨⟨by rw [← hh]; exact h2.1.1, h2.1.2⟩, h2.2⟩
          · exact .inr (h2.trans (congrArg Cfg.invalid i.consts.2.2))
        | _ => exact id
    | hang =>
      unfold World.lex at hl
      cases hx : Lex.lex true w.env.ms d with
      | hang => exact (Lex.C26_terminates _ _ _ hx).elim
      | ok r =>
        rw [hx, Res.ok_bind] at hl
        cases r <;> cases hl
      | _ => rw [hx] at hl; cases hl
    | _ => trivial

theorem ready_idx {w : World} (hw : w.Ready) : World.Ready { w with idx := some 0 } := by
  refine ⟨hw.fatal, hw.started, fun i hi => ?_, hw.empty, fun p hp => ?_⟩
  · cases hi; omega
  · have := hw.constants p hp
    exact ⟨this.made, this.other, this.global, this.single, this.kind, this.leaf⟩

theorem called_outcome {w w1 : World} (hw : w.Ready) {hangs : Prop} (hn : hangs ∨ ∀ t ∈ w.env.cells, t.type ≠ .Decl_Operator) {ts : List CodeType}
    (he : w1.env = w.env) (hs : w1.scope = w.scope) {r : Res (Nat × World)}
    (h : Called (w.ctx hw hangs hn) w1 (fun a h => a = w.env.cfg.invalid ∨ (w.ctx hw hangs hn).Is ts a h) r) : Outcome w hangs (Result w ts) r := by
  revert h
  cases r with
  | ok r =>
    rintro ⟨h1, h2, h3, h4, h5, h6⟩
    refine ⟨ctx_parsed hw hn h1 (h3.trans hs) (h4.trans he) h6, ?_⟩
    rcases h2 with h2 | h2
    · exact .inr h2
    · exact .inl ⟨⟨h2.1, h2.2.1⟩, h2.2.2⟩
  | _ => exact id

/-- A parse that begins with the first token. -/
theorem parse_outcome {w : World} {d : Bytes} (hw : w.Ready) {hangs : Prop} (hn : hangs ∨ NoToken w d .Decl_Operator) {ts : List CodeType}
    {p : P Nat} {S : Nat → Prop} (hp : ∀ c : Ctx, (c.hangs ↔ hangs) → ∀ w1, w.lex d = .ok (some w1) → c.e = w1.env → ∀ g h,
      Safe c 0 g h p (fun a h => a = c.e.cfg.invalid ∨ c.Is ts a h) S) : Outcome w hangs (Result w ts) (w.parse d p) := by
  refine begin_outcome hw fun w1 hl i hh => ?_
  have hw1 := i.ready hw
  have hn1 : hangs ∨ ∀ t ∈ w1.env.cells, t.type ≠ .Decl_Operator := hn.imp id fun h => h w1 hl
  have hs := hp (w1.ctx hw1 hangs hn1) Iff.rfl w1 hl rfl w1.heap w1.heap
  exact called_outcome hw1 hn1 (w1 := { w1 with idx := some 0 }) rfl rfl
    (call_after (w := { w1 with idx := some 0 }) rfl (ctx_start hw1 hn1) (ready_idx hw1).index hs)

/-- The same, without the invalid code. -/
theorem parse_outcome' {w : World} {d : Bytes} (hw : w.Ready) {hangs : Prop} (hn : hangs ∨ NoToken w d .Decl_Operator) {ts : List CodeType}
    {p : P Nat} {S : Nat → Prop} (hp : ∀ (c : Ctx) g h, Safe c 0 g h p (c.Is ts) S) : Outcome w hangs (Result w ts) (w.parse d p) :=
  parse_outcome (S := S) hw hn fun c _ _ _ _ g h => (hp c g h).imp (fun _ _ h => .inr h) (fun _ h => h)

theorem plain_outcome {w : World} {d : Bytes} (hw : w.Ready) {f : Parser} (hf : f ∈ plainParsers) {hangs : Prop}
    (hn1 : hangs ∨ NoToken w d .Decl_Operator) : Outcome w hangs (Result w f.types) (f.run w d) := by
  simp only [plainParsers, List.mem_cons, List.not_mem_nil, or_false] at hf
  rcases hf with rfl | rfl | rfl | rfl | rfl | rfl | rfl | rfl | rfl | rfl | rfl | rfl | rfl | rfl | rfl | rfl | rfl | rfl
  · exact parse_outcome' (S := Any) hw hn1 fun c g h => Safe.inScope (Safe.withRec fun r hr => Safe.classStruct (hr.up (by omega)))
  · refine begin_outcome hw fun w1 hl i hh => ?_
    have hw1 := i.ready hw
    have hn1 : hangs ∨ ∀ t ∈ w1.env.cells, t.type ≠ .Decl_Operator := hn1.imp id fun h => h w1 hl
    have h1 := call_after (p := do Parse.specsOf (← Parse.specifiersLoop (orConst constructorSpecs) [])) rfl (ctx_start hw1 hn1) hw1.index
      (Safe.bindN0 (Safe.specifiersLoop (.inr Safe.orConst_live)) fun _ => Safe.specsOf)
    revert h1
    dsimp only
    cases World.call w1 (do Parse.specsOf (← Parse.specifiersLoop (orConst constructorSpecs) [])) with
    | ok r =>
      obtain ⟨s, w2⟩ := r
      rintro ⟨h1, h2, h3, h4, h5, h6⟩
      rw [Res.ok_bind]
      exact called_outcome hw1 hn1 (w1 := { w2 with idx := some 0 }) h4 h3
        (call_after (w := { w2 with idx := some 0 }) h4.symm h1 (fun i hi => by cases hi; omega)
          ((Safe.constructor h2).imp (fun _ _ h => .inr h) (fun _ h => h)))
    | hang => exact id
    | _ => exact id
  · exact parse_outcome' (S := Any) hw hn1 fun c g h => Safe.inScope Safe.define
  · exact parse_outcome' (S := Any) hw hn1 fun c g h => Safe.destructor .zero
  · exact parse_outcome' (S := Any) hw hn1 fun c g h => Safe.parseEnum
  · exact parse_outcome' (S := Any) hw hn1 fun c g h => Safe.withRec fun r hr => Safe.inScope (Safe.recNspace hr (by decide))
  · exact parse_outcome' (S := Any) hw hn1 fun c g h => Safe.withRec fun r hr => Safe.externLink (hr.up (by omega))
  · exact parse_outcome' (S := Any) hw hn1 fun c g h => Safe.friend
  · exact parse_outcome' (S := Never) hw hn1 fun c g h => Safe.inScope (Safe.withRec fun r hr => Safe.globalBody hr)
  · exact parse_outcome' (S := Any) hw hn1 fun c g h => Safe.withRec fun r hr => Safe.parseNamespace (hr.up (by omega))
  · exact parse_outcome' (S := Any) hw hn1 fun c g h => Safe.operatorCast .zero
  · exact parse_outcome' (S := Any) hw hn1 fun c g h => Safe.inScope (Safe.withRec fun r hr => Safe.classStruct (hr.up (by omega)))
  · exact parse_outcome' (S := Any) hw hn1 fun c g h => Safe.withRec fun r hr => Safe.templateWith (hr.up (by omega))
  · exact parse_outcome' (S := Never) hw hn1 fun c g h => Safe.type
  · exact parse_outcome' (S := Any) hw hn1 fun c g h => Safe.withRec fun r hr => Safe.typedefWith (hr.up (by omega))
  · exact parse_outcome' (S := Any) hw hn1 fun c g h => Safe.withRec fun r hr => Safe.parseUnion (hr.up (by omega))
  · exact parse_outcome' (S := Any) hw hn1 fun c g h => Safe.parseUsing
  · exact parse_outcome' (S := Any) hw hn1 fun c g h => Safe.parseVariable

theorem const_outcome {w : World} {d : Bytes} (hw : w.Ready) {f : Parser} (hf : f ∈ constParsers) {hangs : Prop}
    (hn : hangs ∨ (NoToken w d .Decl_Operator ∧ NoSpecifier w d .Const)) : Outcome w hangs (Result w f.types) (f.run w d) := by
  have hn1 : hangs ∨ NoToken w d .Decl_Operator := hn.imp id (·.1)
  have hc : ∀ c : Ctx, (c.hangs ↔ hangs) → ∀ w1, w.lex d = .ok (some w1) → c.e = w1.env → c.hangs ∨ Safe.NoConst c.e := by
    intro c h1 w1 hl he
    rcases hn with hn | hn
    · exact .inl (h1.mpr hn)
    · exact .inr (he ▸ hn.2 w1 hl)
  simp only [constParsers, List.mem_cons, List.not_mem_nil, or_false] at hf
  rcases hf with rfl | rfl
  · exact parse_outcome (S := Never) hw hn1 fun c h1 w1 hl he g h => Safe.parseFunction (hc c h1 w1 hl he)
  · exact parse_outcome (S := Any) hw hn1 fun c h1 w1 hl he g h => (Safe.parseOperator (hc c h1 w1 hl he)).imp (fun _ _ h => .inr h) (fun _ h => h)

theorem run_outcome {w : World} {d : Bytes} (hw : w.Ready) {f : Parser} (hf : f ∈ parsers) : Outcome w True (Result w f.types) (f.run w d) := by
  rcases List.mem_append.mp hf with hf | hf
  · exact plain_outcome hw hf (.inl trivial)
  · exact const_outcome hw hf (.inl trivial)

end Verif.Parse
