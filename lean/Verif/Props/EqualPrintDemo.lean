import Verif.Props.EqualPrint
import Verif.Props.SerDemo
/-!
# Property C32: a case of Props/EqualPrint.lean, and what goes wrong without the conditions
-/
namespace Verif.Ser
open Ast Fmt

/-! ## A case, and what goes wrong without the conditions -/

/-- `struct S { int x; const int y; };` twice (7 and 8), and declarations that differ in what is not compared. -/
def twinsDemo : Heap := { next := 40, cell := fun
  | 1 => { type := .Variable, name := b!"x", typ := 9, back := 2, parent := 5 }
  | 2 => { type := .Variable, name := b!"y", typ := 9, specs := 11, parent := 5 }
  | 3 => { type := .Variable, name := b!"x", typ := 10, back := 4, parent := 6 }
  | 4 => { type := .Variable, name := b!"y", typ := 10, specs := 12, parent := 6 }
  | 5 => { type := .Struct_Body, num := 2, front := 1, back := 2, parent := 7 }
  | 6 => { type := .Struct_Body, num := 2, front := 3, back := 4, parent := 8 }
  | 7 => { type := .Struct, name := b!"S", body := 5 }
  | 8 => { type := .Struct, name := b!"S", body := 6 }
  | 9 => { type := .Typename, name := b!"int", parent := 1 }
  | 10 => { type := .Typename, name := b!"int", parent := 3 }
  | 11 => { type := .Specifiers, num := 1, arrSpecs := .Const :: List.replicate (specsCap - 1) .Invalid }
  | 12 => { type := .Specifiers, num := 1, arrSpecs := .Const :: List.replicate (specsCap - 1) .Invalid }
  | 13 => { type := .Struct_Fwd, name := b!"S", moduleFlags := 1 }
  | 14 => { type := .Struct_Fwd, name := b!"S" }
  | 15 => { type := .Specifiers, num := 1, arrSpecs := .Final :: List.replicate (specsCap - 1) .Invalid }
  | 16 => { type := .Struct, name := b!"S", body := 22, specs := 15 }
  | 17 => { type := .Typename, name := b!"S", typeTag := 3 }
  | 18 => { type := .Typename, name := b!"S" }
  | 19 => { type := .Function_Fwd, name := b!"f", body := 21 }
  | 20 => { type := .Function_Fwd, name := b!"f" }
  | 21 => { type := .Untyped, content := b!"default" }
  | 22 => { type := .Struct_Body }
  | 23 => { type := .Struct, name := b!"S", body := 22 }
  | _ => {} }

/-- The run of the serializers on it. -/
def twinsEnv : Env := { h := twinsDemo }

theorem twins_typename (i : Nat) (hi : i = 9 ∨ i = 10) : Compared twinsEnv i := by
  rcases hi with rfl | rfl <;>
  exact .mk _ [] (by constructor <;> decide) (fun h => absurd rfl h) (fun h => absurd rfl h) (fun h => absurd rfl h)
    (fun h => absurd rfl h) (fun h => by cases h) (fun h => by cases h)

theorem twins_specs (i : Nat) (hi : i = 11 ∨ i = 12) : Compared twinsEnv i := by
  rcases hi with rfl | rfl <;>
  exact .mk _ [] (by constructor <;> decide) (fun h => absurd rfl h) (fun h => absurd rfl h) (fun h => absurd rfl h)
    (fun h => absurd rfl h) (fun h => by cases h) (fun h => by cases h)

theorem twins_variable (i : Nat) (hi : i ∈ [1, 2, 3, 4]) : Compared twinsEnv i := by
  simp only [List.mem_cons, List.not_mem_nil, or_false] at hi
  rcases hi with rfl | rfl | rfl | rfl
  · exact .mk _ [] (by constructor <;> decide) (fun _ => twins_typename 9 (by decide)) (fun h => absurd rfl h) (fun h => absurd rfl h)
      (fun h => absurd rfl h) (fun h => by cases h) (fun h => by cases h)
  · exact .mk _ [] (by constructor <;> decide) (fun _ => twins_typename 9 (by decide)) (fun _ => twins_specs 11 (by decide))
      (fun h => absurd rfl h) (fun h => absurd rfl h) (fun h => by cases h) (fun h => by cases h)
  · exact .mk _ [] (by constructor <;> decide) (fun _ => twins_typename 10 (by decide)) (fun h => absurd rfl h) (fun h => absurd rfl h)
      (fun h => absurd rfl h) (fun h => by cases h) (fun h => by cases h)
  · exact .mk _ [] (by constructor <;> decide) (fun _ => twins_typename 10 (by decide)) (fun _ => twins_specs 12 (by decide))
      (fun h => absurd rfl h) (fun h => absurd rfl h) (fun h => by cases h) (fun h => by cases h)

theorem twins_body (i : Nat) (hi : i = 5 ∨ i = 6) : Compared twinsEnv i := by
  rcases hi with rfl | rfl
  · exact .mk _ [1, 2] (by constructor <;> decide) (fun h => absurd rfl h) (fun h => absurd rfl h) (fun h => absurd rfl h)
      (fun h => absurd rfl h) (fun _ => ⟨rfl, by decide, rfl, by decide, rfl⟩)
      (fun _ q hq => twins_variable q (by simp at hq; rcases hq with rfl | rfl <;> decide))
  · exact .mk _ [3, 4] (by constructor <;> decide) (fun h => absurd rfl h) (fun h => absurd rfl h) (fun h => absurd rfl h)
      (fun h => absurd rfl h) (fun _ => ⟨rfl, by decide, rfl, by decide, rfl⟩)
      (fun _ q hq => twins_variable q (by simp at hq; rcases hq with rfl | rfl <;> decide))

theorem twins_struct (i : Nat) (hi : i = 7 ∨ i = 8) : Compared twinsEnv i := by
  rcases hi with rfl | rfl
  · exact .mk _ [] (by constructor <;> decide) (fun h => absurd rfl h) (fun h => absurd rfl h) (fun h => absurd rfl h)
      (fun _ => twins_body 5 (by decide)) (fun h => by cases h) (fun h => by cases h)
  · exact .mk _ [] (by constructor <;> decide) (fun h => absurd rfl h) (fun h => absurd rfl h) (fun h => absurd rfl h)
      (fun _ => twins_body 6 (by decide)) (fun h => by cases h) (fun h => by cases h)

theorem twins_equal : BothEqual true twinsEnv.h 7 8 := ⟨⟨9, by decide +kernel⟩, ⟨9, by decide +kernel⟩⟩

/-- The hypotheses are met: the two structs make the same text. -/
example (t : Bytes) : Prints twinsEnv .code 7 t ↔ Prints twinsEnv .code 8 t :=
  C32_equal_prints_partial (twins_struct 7 (by decide)) (twins_struct 8 (by decide)) twins_equal t

/-- What follows a declared function, and an empty body. -/
theorem twins_parts : Prints twinsEnv .body 21 b!"default" ∧ Prints twinsEnv .body 22 [] ∧ IsSpecs twinsDemo 15 [.Final] :=
  ⟨⟨1, rfl⟩, ⟨1, rfl⟩, by constructor <;> decide⟩

/-- C32 fails: `export` before a declared struct is printed but not compared. -/
theorem C32_export_ignored_refuted : BothEqual true twinsDemo 13 14 ∧ Prints twinsEnv .code 13 b!"export struct S;\n" ∧
    Prints twinsEnv .code 14 b!"struct S;\n" :=
  ⟨⟨⟨9, by decide +kernel⟩, ⟨9, by decide +kernel⟩⟩,
   (C45_struct_fwd (e := twinsEnv) (p := 13) ⟨by decide, rfl, rfl⟩ (by decide) (by decide) (by decide)).print (by decide +kernel) (by decide +kernel),
   (C45_struct_fwd (e := twinsEnv) (p := 14) ⟨by decide, rfl, rfl⟩ (by decide) (by decide) (by decide)).print (by decide +kernel) (by decide +kernel)⟩

/-- C32 fails: `final` is printed but not compared. -/
theorem C32_final_ignored_refuted : BothEqual true twinsDemo 16 23 ∧ Prints twinsEnv .code 16 b!"struct S final\n{\n\n};\n" ∧
    Prints twinsEnv .code 23 b!"struct S\n{\n\n};\n" :=
  ⟨⟨⟨9, by decide +kernel⟩, ⟨9, by decide +kernel⟩⟩,
   (C45_struct (e := twinsEnv) (p := 16) (l := [.Final]) (pt := []) (ps := []) (ts := []) ⟨by decide, rfl, rfl⟩ twins_parts.2.1 (by decide)
     twins_parts.2.2 (by decide) (by decide) (by decide) (fun h => absurd rfl h) (by decide)).print (by decide +kernel) (by decide +kernel),
   (C45_struct (e := twinsEnv) (p := 23) (l := []) (pt := []) (ps := []) (ts := []) ⟨by decide, rfl, rfl⟩ twins_parts.2.1 (by decide)
     rfl (by decide) (by decide) (by decide) (fun h => absurd rfl h) (by decide)).print (by decide +kernel) (by decide +kernel)⟩

/-- C32 fails: `= default` after a declared function is printed but not compared. -/
theorem C32_default_ignored_refuted : BothEqual true twinsDemo 19 20 ∧ Prints twinsEnv .code 19 b!"f() = default;;\n" ∧
    Prints twinsEnv .code 20 b!"f();\n" :=
  ⟨⟨⟨9, by decide +kernel⟩, ⟨9, by decide +kernel⟩⟩,
   (C46_function_fwd (e := twinsEnv) (p := 19) (l := []) (rt := []) (pt := []) (st := []) ⟨by decide, rfl, rfl⟩ (fun _ => twins_parts.1)
     (by decide) rfl (fun h => absurd rfl h) (fun h => absurd rfl h) (fun h => absurd rfl h) (by decide)).print (by decide +kernel) (by decide +kernel),
   (C46_function_fwd (e := twinsEnv) (p := 20) (l := []) (t := []) (rt := []) (pt := []) (st := []) ⟨by decide, rfl, rfl⟩ (fun h => absurd rfl h)
     (by decide) rfl (fun h => absurd rfl h) (fun h => absurd rfl h) (fun h => absurd rfl h) (by decide)).print (by decide +kernel) (by decide +kernel)⟩

/-- C32 fails: the tag of a type is printed but not compared. -/
theorem C32_tag_ignored_refuted : BothEqual true twinsDemo 17 18 ∧ Prints twinsEnv .code 17 b!"struct S" ∧ Prints twinsEnv .code 18 b!"S" :=
  ⟨⟨⟨9, by decide +kernel⟩, ⟨9, by decide +kernel⟩⟩, 
  ((C47_typename (e := twinsEnv) (p := 17) (l := []) (by decide) rfl (by decide) rfl (by decide)).2 rfl).print (by decide +kernel) (by decide +kernel),
  ((C47_typename (e := twinsEnv) (p := 18) (l := []) (by decide) rfl (by decide) rfl (by decide)).2 rfl).print (by decide +kernel) (by decide +kernel)⟩

end Verif.Ser
