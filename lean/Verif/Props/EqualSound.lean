import Verif.Props.Equal
/-!
# Property C32: what `code_is_equal` reporting "equal" guarantees

The guarantee is stated against `printedParts`, a table written from the language: the sub-codes a declaration of each kind is
made of.
-/
namespace Verif.Ast

/-- The parts of a declaration, by kind, that `code_is_equal` is entitled to be relied on for. -/
def printedParts : CodeType → List (Node → Nat)
  /- class-like definitions: attributes, base class, members -/
  | .Class | .Struct => [Node.attributes, Node.typ, Node.body]
  | .Class_Fwd | .Struct_Fwd => [Node.attributes, Node.typ]
  | .Union => [Node.attributes, Node.body]
  /- enumerations: attributes, underlying type (or the macro that stands for it), enumerators -/
  | .Enum | .Enum_Class => [Node.attributes, Node.typ, Node.params, Node.body]
  | .Enum_Fwd | .Enum_Class_Fwd => [Node.attributes, Node.typ, Node.params]
  /- functions and operators: attributes, specifiers, return type, parameters, body -/
  | .Function | .Operator | .Operator_Member => [Node.attributes, Node.specs, Node.typ, Node.params, Node.body]
  | .Function_Fwd | .Operator_Fwd | .Operator_Member_Fwd => [Node.attributes, Node.specs, Node.typ, Node.params]
  | .Operator_Cast => [Node.specs, Node.typ, Node.body]
  | .Operator_Cast_Fwd => [Node.specs, Node.typ]
  /- constructors: initializer list, parameters, body -/
  | .Constructor => [Node.typ, Node.params, Node.body]
  | .Constructor_Fwd => [Node.typ, Node.params]
  | .Destructor => [Node.specs, Node.body]
  | .Destructor_Fwd => [Node.specs]
  | .Namespace | .Extern_Linkage => [Node.body]
  | .Friend => [Node.body]
  | .Template => [Node.params, Node.body]
  | .Typedef => [Node.specs, Node.typ]
  | .Typename => [Node.specs, Node.body]
  | .Using => [Node.typ, Node.attributes]
  | .Variable => [Node.attributes, Node.specs, Node.typ, Node.params, Node.body, Node.suffix]
  | _ => []

theorem runChecks_ast {eq : Nat → Nat → Res Bool} {s o : Node} {f : Node → Nat} : ∀ (cs : List Chk), Chk.ast f ∈ cs →
    runChecks eq s o cs = .ok true → f s = 0 ∨ (f o ≠ 0 ∧ eq (f s) (f o) = .ok true)
  | [], hm, _ => by cases hm
  | c :: cs, hm, he => by
    cases c with
    | name =>
      simp only [runChecks] at he
      split at he
      · cases he
      · exact runChecks_ast cs (by simpa using hm) he
    | mflags =>
      simp only [runChecks] at he
      split at he
      · cases he
      · exact runChecks_ast cs (by simpa using hm) he
    | num =>
      simp only [runChecks] at he
      split at he
      · cases he
      · exact runChecks_ast cs (by simpa using hm) he
    | pack =>
      simp only [runChecks] at he
      split at he
      · cases he
      · exact runChecks_ast cs (by simpa using hm) he
    | ast g =>
      simp only [runChecks] at he
      rcases List.mem_cons.1 hm with hm | hm
      · cases hm
        by_cases h0 : f s = 0
        · exact .inl h0
        · rw [if_neg h0] at he
          by_cases h1 : f o = 0
          · rw [if_pos h1] at he; cases he
          · rw [if_neg h1] at he
            obtain ⟨b, hb, hc⟩ := Res.bind_eq_ok.1 he
            cases b
            · cases hc
            · exact .inr ⟨h1, hb⟩
      · split at he
        · exact runChecks_ast cs hm he
        · split at he
          · cases he
          · obtain ⟨b, _, hb⟩ := Res.bind_eq_ok.1 he
            cases b
            · cases hb
            · exact runChecks_ast cs hm hb

/-- C32: when two codes are reported equal, every part of the first has a counterpart in the second which was itself reported
equal. (The converse fails: a part the second has and the first does not is overlooked, `C32_not_symmetric_refuted`.) -/
theorem C32_parts_equal_partial {fatal : Bool} {fuel : Nat} {h : Heap} {a b : Nat} (he : isEqual fatal fuel h a b = .ok true)
    {f : Node → Nat} (hf : f ∈ printedParts (h.cell a).type) (ha : f (h.cell a) ≠ 0) :
    f (h.cell b) ≠ 0 ∧ ∃ fuel', fuel' < fuel ∧ isEqual fatal fuel' h (f (h.cell a)) (f (h.cell b)) = .ok true := by
  obtain ⟨va, vb, ht⟩ := C32_same_type_partial he
  cases fuel with
  | zero => cases he
  | succ fuel =>
    have hb : b ≠ 0 := by have := vb.1; omega
    unfold isEqual at he
    rw [if_neg hb, get_ok va, get_ok vb] at he
    simp only [Res.ok_bind, ht, ne_eq, not_true_eq_false, if_false] at he
    rw [ht] at hf
    have key : Chk.ast f ∈ eqChecks (h.cell b).type →
        runChecks (isEqual fatal fuel h) (h.cell a) (h.cell b) (eqChecks (h.cell b).type) = .ok true →
        f (h.cell b) ≠ 0 ∧ ∃ fuel', fuel' < fuel + 1 ∧ isEqual fatal fuel' h (f (h.cell a)) (f (h.cell b)) = .ok true := by
      intro hm hr
      rcases runChecks_ast _ hm hr with h0 | ⟨h1, h2⟩
      · exact absurd h0 ha
      · exact ⟨h1, fuel, by omega, h2⟩
    generalize hs : h.cell a = s at *
    generalize ho : h.cell b = o at *
    generalize o.type = t at *
    cases t <;> simp [printedParts] at hf <;> simp only [eqBodyType, Bool.false_eq_true, if_false] at he <;>
      (refine key ?_ he; simp only [eqChecks, List.mem_cons, Chk.ast.injEq, reduceCtorEq, false_or, List.not_mem_nil, or_false]; grind)

/-- Nodes reported pairwise equal. -/
def PairsEqual (fatal : Bool) (fuel : Nat) (h : Heap) : List Nat → List Nat → Prop
  | [], [] => True
  | x :: l, y :: m => isEqual fatal fuel h x y = .ok true ∧ PairsEqual fatal fuel h l m
  | _, _ => False

theorem eqBodyLoop_sound {fatal : Bool} {fuel : Nat} {h : Heap} : ∀ (l m : List Nat) (p q n : Nat), NullChain h p l → NullChain h q m →
    eqBodyLoop (isEqual fatal fuel h) h n p q = .ok true → PairsEqual fatal fuel h l (m.take l.length) ∧ l.length ≤ m.length
  | [], m, p, q, n, _, _, _ => by simp [PairsEqual]
  | x :: l, [], p, q, n, c, d, he => by
    cases n with
    | zero => cases he
    | succ n =>
      obtain ⟨c1, c2, c3⟩ := c
      subst c1
      have hp : p ≠ 0 := by have := c2.1; omega
      have hq : q = 0 := d
      simp [eqBodyLoop, hp, hq] at he
  | x :: l, y :: m, p, q, n, c, d, he => by
    cases n with
    | zero => cases he
    | succ n =>
      obtain ⟨c1, c2, c3⟩ := c
      obtain ⟨d1, d2, d3⟩ := d
      subst c1; subst d1
      have hp : p ≠ 0 := by have := c2.1; omega
      have hq : q ≠ 0 := by have := d2.1; omega
      simp only [eqBodyLoop, hp, hq, if_false] at he
      obtain ⟨b, hb, he⟩ := Res.bind_eq_ok.1 he
      cases b
      · simp at he
      · simp only [Bool.not_true, Bool.false_eq_true, if_false, get_ok c2, get_ok d2, Res.ok_bind] at he
        have := eqBodyLoop_sound l m _ _ n c3 d3 he
        refine ⟨⟨hb, this.1⟩, ?_⟩
        have := this.2
        simp; omega

/-- The kinds of body whose entries are compared. -/
def ComparedBody : CodeType → Prop := (· ∈ ([.Class_Body, .Enum_Body, .Export_Body, .Global_Body, .Namespace_Body, .Struct_Body,
  .Union_Body] : List CodeType))

/-- C32: two bodies (of the kinds that are compared) reported equal have the same number of entries, pairwise reported equal. -/
theorem C32_bodies_equal_partial {fatal : Bool} {fuel : Nat} {h : Heap} {a b : Nat} {l m : List Nat}
    (he : isEqual fatal fuel h a b = .ok true) (ht : ComparedBody (h.cell a).type)
    (la : NullChain h (h.cell a).front l) (lb : NullChain h (h.cell b).front m)
    (na : (h.cell a).num = l.length) (nb : (h.cell b).num = m.length) :
    l.length = m.length ∧ ∃ fuel', fuel' < fuel ∧ PairsEqual fatal fuel' h l m := by
  obtain ⟨va, vb, hty⟩ := C32_same_type_partial he
  cases fuel with
  | zero => cases he
  | succ fuel =>
    have hb : b ≠ 0 := by have := vb.1; omega
    unfold isEqual at he
    rw [if_neg hb, get_ok va, get_ok vb] at he
    simp only [Res.ok_bind, hty, ne_eq, not_true_eq_false, if_false] at he
    rw [hty] at ht
    have key : (eqBodyLoop (isEqual fatal fuel h) h fuel (h.cell a).front (h.cell b).front = .ok true) →
        (h.cell a).num = (h.cell b).num → l.length = m.length ∧ ∃ fuel', fuel' < fuel + 1 ∧ PairsEqual fatal fuel' h l m := by
      intro hl hn
      have hlen : l.length = m.length := by omega
      have := (eqBodyLoop_sound l m _ _ _ la lb hl).1
      rw [List.take_of_length_le (by omega)] at this
      exact ⟨hlen, fuel, by omega, this⟩
    have fin : ((runChecks (isEqual fatal fuel h) (h.cell a) (h.cell b) [.ast Node.front, .ast Node.back]).bind fun b_1 =>
        if !b_1 then .ok false else
        (eqBodyLoop (isEqual fatal fuel h) h fuel (h.cell a).front (h.cell b).front).bind fun b_2 =>
          .ok (b_2 && decide ((h.cell a).num = (h.cell b).num))) = .ok true →
        l.length = m.length ∧ ∃ fuel', fuel' < fuel + 1 ∧ PairsEqual fatal fuel' h l m := by
      intro he
      obtain ⟨c, _, he⟩ := Res.bind_eq_ok.1 he
      cases c
      · simp at he
      · simp only [Bool.not_true, Bool.false_eq_true, if_false] at he
        obtain ⟨d, hd, he⟩ := Res.bind_eq_ok.1 he
        simp only [Res.ok.injEq, Bool.and_eq_true, decide_eq_true_eq] at he
        rw [he.1] at hd
        exact key hd he.2
    generalize hs : h.cell a = s at *
    generalize ho : h.cell b = o at *
    generalize o.type = t at *
    cases t <;> simp [ComparedBody] at ht <;> simp only [eqBodyType, if_true] at he <;> exact fin he

/-- C32: a parameter list of two or more reported equal to another has the same number of parameters as the other, and when
there is one parameter its name, type and default value were compared. (One parameter is reported equal to a longer list that
begins with it, `C32_short_list_equal_refuted`; for longer lists the test of the names is the wrong way round,
`C32_different_params_equal_refuted`.) -/
theorem C32_params_equal_partial {fatal : Bool} {fuel : Nat} {h : Heap} {a b : Nat} (he : isEqual fatal fuel h a b = .ok true)
    (ht : (h.cell a).type = .Parameters) :
    ((h.cell a).num > 1 → (h.cell a).num = (h.cell b).num) ∧ ((h.cell a).num ≤ 1 → (h.cell a).name = (h.cell b).name) ∧
    ((h.cell a).num ≤ 1 → ∀ f, f ∈ [Node.typ, Node.body] → f (h.cell a) ≠ 0 →
      f (h.cell b) ≠ 0 ∧ ∃ fuel', fuel' < fuel ∧ isEqual fatal fuel' h (f (h.cell a)) (f (h.cell b)) = .ok true) := by
  obtain ⟨va, vb, hty⟩ := C32_same_type_partial he
  cases fuel with
  | zero => cases he
  | succ fuel =>
    have hb : b ≠ 0 := by have := vb.1; omega
    unfold isEqual at he
    rw [if_neg hb, get_ok va, get_ok vb] at he
    simp only [Res.ok_bind, ← hty, ht, ne_eq, not_true_eq_false, if_false] at he
    by_cases hn : (h.cell a).num > 1
    · rw [if_pos hn] at he
      obtain ⟨c, _, he⟩ := Res.bind_eq_ok.1 he
      simp only [Res.ok.injEq, Bool.and_eq_true, decide_eq_true_eq] at he
      exact ⟨fun _ => he.2, fun hle => by omega, fun hle => by omega⟩
    · rw [if_neg hn] at he
      refine ⟨fun hgt => absurd hgt hn, fun _ => ?_, fun _ f hf ha => ?_⟩
      · simp only [eqChecks, runChecks] at he
        grind
      · have hm : Chk.ast f ∈ eqChecks .Parameters := by
          simp only [eqChecks, List.mem_cons, Chk.ast.injEq, reduceCtorEq, false_or, List.not_mem_nil, or_false] at hf ⊢
          grind
        rcases runChecks_ast _ hm he with h0 | ⟨h1, h2⟩
        · exact absurd h0 ha
        · exact ⟨h1, fuel, by omega, h2⟩

/-- Two structs with a member each, and what the theorems say of them: the hypotheses are met. -/
def eqBodyDemo : Heap := { next := 20, cell := fun
  | 1 => { type := .Variable, name := b!"x", typ := 9, back := 2 }
  | 2 => { type := .Variable, name := b!"y", typ := 9 }
  | 3 => { type := .Variable, name := b!"x", typ := 9, back := 4 }
  | 4 => { type := .Variable, name := b!"y", typ := 9 }
  | 5 => { type := .Struct_Body, num := 2, front := 1, back := 2 }
  | 6 => { type := .Struct_Body, num := 2, front := 3, back := 4 }
  | 7 => { type := .Struct, name := b!"S", body := 5 }
  | 8 => { type := .Struct, name := b!"S", body := 6 }
  | 9 => { type := .Typename, name := b!"int" }
  | 10 => { type := .Parameters, name := b!"a", typ := 9, num := 1 }
  | 11 => { type := .Parameters, name := b!"a", typ := 9, num := 1 }
  | 12 => { type := .Parameters, name := b!"a", typ := 9, num := 2, back := 13 }
  | 13 => { type := .Parameters, name := b!"b", typ := 9, num := 1 }
  | _ => {} }

example : isEqual true 9 eqBodyDemo 7 8 = .ok true ∧ (eqBodyDemo.cell 7).body ≠ 0 := by decide +kernel
example : Node.body ∈ printedParts (eqBodyDemo.cell 7).type := by
  show Node.body ∈ [Node.attributes, Node.typ, Node.body]
  simp
example : isEqual true 9 eqBodyDemo 5 6 = .ok true ∧ NullChain eqBodyDemo (eqBodyDemo.cell 5).front [1, 2] ∧
    NullChain eqBodyDemo (eqBodyDemo.cell 6).front [3, 4] ∧ (eqBodyDemo.cell 5).num = 2 ∧ (eqBodyDemo.cell 6).num = 2 :=
  ⟨by decide +kernel, ⟨rfl, by decide, rfl, by decide, rfl⟩, ⟨rfl, by decide, rfl, by decide, rfl⟩, rfl, rfl⟩
example : ComparedBody (eqBodyDemo.cell 5).type := by
  show CodeType.Struct_Body ∈ ([.Class_Body, .Enum_Body, .Export_Body, .Global_Body, .Namespace_Body, .Struct_Body,
    .Union_Body] : List CodeType)
  decide
/-- C32 fails: the list `int a` is reported equal to the list `int a, int b`. -/
theorem C32_short_list_equal_refuted : isEqual true 9 eqBodyDemo 10 12 = .ok true ∧
    (eqBodyDemo.cell 10).num = 1 ∧ (eqBodyDemo.cell 12).num = 2 := by decide +kernel
example : isEqual true 9 eqBodyDemo 10 11 = .ok true ∧ (eqBodyDemo.cell 10).typ ≠ 0 := by decide +kernel

end Verif.Ast
