import Verif.Props.DefBody
import Verif.Props.SerDemo
/-!
# Property C49 at work

A small heap, and the texts of codes made from it.
-/
namespace Verif.Ser.DefDemo
open Ast Demo

def nodes : List Node := [
  /- 0 -/ {},
  /- 1 -/ { type := .Typename, name := b!"int" },
  /- 2 -/ { type := .Untyped, content := b!"body" },
  /- 3 -/ { type := .PlatformAttributes, content := b!"[[x]]" },
  /- 4 -/ specNode [.Inline, .Const],
  /- 5 -/ { type := .Parameters, name := b!"a", typ := 1, num := 1 },
  /- 6 -/ { type := .Struct_Body, front := 7, back := 7, num := 1 },
  /- 7 -/ { type := .Untyped, content := b!"int m;", parent := 6 },
  /- 8 -/ { type := .Untyped, content := b!"3" },
  /- 9 -/ { type := .Typename, name := b!"float", body := 8 },
  /- 10 -/ { type := .Untyped, content := b!"one\n" },
  /- 11 -/ { type := .Comment, content := b!"//two\n" },
  /- 12 -/ { type := .Class_Body, front := 13, back := 14, num := 2 },
  /- 13 -/ { type := .Constructor, body := 2, parent := 12, back := 14 },
  /- 14 -/ { type := .Untyped, content := b!"int m;", parent := 12, front := 13 },
  /- 15 -/ specNode [.Static],
  /- 16 -/ { type := .Class_Body, front := 17, back := 17, num := 1 },
  /- 17 -/ { type := .Untyped, content := b!"int k;", parent := 16 },
  /- 18 -/ { type := .Struct, name := b!"A", body := 6 }]

def heap : Heap := { next := 19, cell := fun q => nodes.getD q {} }
def env : Env := { h := heap }
def cfg : Cfg := { fatal := true, invalid := 2, tVoid := 1, tInt := 1, tBool := 1 }

instance (h : Heap) (p : Nat) : Decidable (PtrOk h p) := inferInstanceAs (Decidable (_ ∨ _))
instance (h : Heap) (p : Nat) (l : List CodeType) : Decidable (OptIs h p l) := inferInstanceAs (Decidable (_ ∨ _))

theorem hn : 0 < env.h.next := by decide

theorem p_int : Prints env .typename 1 b!"int" :=
  ((C47_typename (l := []) (e := env) (p := 1) (by decide +kernel) rfl (by decide +kernel) rfl (.inl rfl)).1).print
    (by decide +kernel) (by decide +kernel)

theorem p_body : Prints env .body 2 b!"body" := C34_text_body (n := heap.cell 2) (.inl ⟨by decide +kernel, rfl, rfl⟩)

theorem p_param : Prints env .params 5 b!" int a" :=
  (C47_param (e := env) (p := 5) (tt := b!"int") (st := []) (vt := []) (by decide +kernel) rfl (by decide +kernel) (by decide +kernel)
    (fun _ => p_int) (fun h => absurd rfl h) (fun h => absurd rfl h)).print (by decide +kernel) (by decide +kernel)

theorem p_text (q : Nat) (hv : env.h.Valid q) (ht : (env.h.cell q).type = .Untyped ∨ (env.h.cell q).type = .Comment) :
    Prints env .code q (env.h.cell q).content :=
  C48_text (ht.elim (fun h => .inl ⟨hv, rfl, h⟩) (fun h => .inr (.inr (.inl ⟨hv, rfl, h⟩))))

/-- `def_function` -/
example : Yields env (defFunction cfg env.h b!"f" { params := 5, retType := 1, body := 2, specs := 4, attrs := 3 })
    b!" [[x]]  inline\nint f( int a) const\n{\nbody\n}\n" := by
  have := C49_def_function cfg hn (name := b!"f") (p := { params := 5, retType := 1, body := 2, specs := 4, attrs := 3 }) (l := [.Inline, .Const])
    (by decide) (by decide +kernel) (by decide +kernel) ⟨by decide +kernel, by decide +kernel, by decide +kernel, by decide +kernel, by decide +kernel⟩
    (by decide +kernel) (rt := b!"int") p_int (by decide +kernel) (fun _ => p_param) (by decide +kernel) p_body (by decide +kernel)
  exact this

/-- `def_function` without body, and the default return type. -/
example : Yields env (defFunction cfg env.h b!"f" { mflags := 1 }) b!"export int f();\n" := by
  have := C49_def_function_fwd cfg hn (name := b!"f") (p := { mflags := 1 }) (l := []) (pt := [])
    (by decide) (by decide +kernel) (by decide +kernel) (by rfl) (by decide +kernel) (by decide) (rt := b!"int") p_int (by decide +kernel)
    (fun h => absurd rfl h) (by decide +kernel) rfl
  exact this

theorem one {b x : Nat} (h : env.h.Valid b ∧ (env.h.cell b).num = 1 ∧ (env.h.cell b).front = x ∧ (env.h.cell b).back = x ∧ env.h.Valid x ∧
    (env.h.cell x).parent = b ∧ b ≠ x) : IsBody env.h b [x] := by
  obtain ⟨h1, h2, h3, h4, h5, h6, h7⟩ := h
  exact ⟨hn, h1, h2, ⟨h3, h5, trivial⟩, fun h => absurd h (by simp), fun y hy => by simp at hy; subst hy; exact h4,
    fun y hy => by simp at hy; subst hy; exact h6, by simpa using h7, by simp⟩

theorem p_sbody : Prints env .body 6 b!"int m;" := by
  have hb : IsBody env.h 6 [7] := one (by decide +kernel)
  exact (C34_body (e := env) hb rfl (ts := [b!"int m;"]) ⟨p_text 7 (by decide +kernel) (.inl rfl), trivial⟩).1

/-- `def_struct` with a public parent -/
example : Yields env (defStruct 3 cfg env.h b!"S" { body := 6, parent := 1, parentAccess := 3 })
    b!"struct S : public int\n{\nint m;\n};\n" := by
  have := C49_def_struct cfg hn (fuel := 3) (name := b!"S") (p := { body := 6, parent := 1, parentAccess := 3 }) (l := []) rfl
    (by decide +kernel) (by decide +kernel) (by rfl) (fun _ => ⟨p_int, by decide +kernel, by decide +kernel⟩) (by decide) p_sbody (by decide +kernel)
  exact this

/-- `def_variable` of an array type -/
example : Yields env (defVariable cfg env.h 9 b!"v" { specifiers := 15, value := 8 }) b!"static float v[ 3 ] = 3;\n" := by
  have p9 : Prints env .typename 9 b!"float" :=
    ((C47_typename (l := []) (e := env) (p := 9) (by decide +kernel) rfl (by decide +kernel) rfl (.inl rfl)).1).print
      (by decide +kernel) (by decide +kernel)
  have := C49_def_variable_specified cfg hn (type := 9) (name := b!"v") (p := { specifiers := 15, value := 8 }) (sl := [.Static]) (l := [8]) (ts := [b!"3"])
    (by decide) p9 rfl (fun _ => ⟨rfl, by decide +kernel, rfl⟩) ⟨p_text 8 (by decide +kernel) (.inl rfl), trivial⟩
    (fun _ => p_text 8 (by decide +kernel) (.inl rfl)) (by decide +kernel) (.inr (by decide)) (by decide +kernel) (by decide +kernel)
    ⟨by decide +kernel, by decide +kernel, by decide +kernel, by decide +kernel, by decide +kernel⟩ (by decide +kernel)
  exact this

theorem valid_lt {q : Nat} (h : env.h.Valid q) : q < 19 := h.2

theorem loose : Loose env.h [10, 11] := by
  intro q hv
  have h : ∀ q < 19, ∀ s ∈ slots (heap.cell q), s ∉ [10, 11] := by decide +kernel
  exact h q (valid_lt hv)

theorem ctors (es : List Nat) (h : ∀ q < 19, (heap.cell q).type = .Constructor ∨ (heap.cell q).type = .Constructor_Fwd → (heap.cell q).parent ∉ es) :
    ∀ q, env.h.Valid q → isCtor (env.h.cell q).type → (env.h.cell q).parent ∉ es := fun q hv hc => h q (valid_lt hv) hc

/-- `def_namespace_body` -/
example : ∃ h', defKindBody 3 cfg env.h .namespace [10, 11] = .ok (19, h') ∧ (h'.cell 19).type = .Namespace_Body ∧
    Prints (env.on h') .body 19 b!"one\n//two\n" := by
  obtain ⟨h', h1, h2, h3, _⟩ := C49_def_body 3 cfg hn (k := .namespace) (es := [10, 11]) (ts := [b!"one\n", b!"//two\n"]) (by decide) (by decide) (by decide)
    (fun q hq => by
      simp only [List.mem_cons, List.not_mem_nil, or_false] at hq
      rcases hq with rfl | rfl
      · exact ⟨by decide +kernel, rfl, rfl, (fun h => by rcases h with h | h <;> cases h), (fun h => by rcases h with h | h <;> cases h), by decide +kernel⟩
      · exact ⟨by decide +kernel, rfl, rfl, (fun h => by rcases h with h | h <;> cases h), (fun h => by rcases h with h | h <;> cases h), by decide +kernel⟩)
    loose (ctors _ (by decide +kernel)) ⟨p_text 10 (by decide +kernel) (.inl rfl), p_text 11 (by decide +kernel) (.inr rfl), trivial⟩
  exact ⟨h', h1, h2, h3⟩

/-- `def_class` with a body without constructors; and the name printed for the constructor of another body. -/
example : ∃ h', defClass 3 cfg env.h b!"K" { body := 16 } = .ok (19, h') ∧ Prints (env.on h') .code 19 b!"class K\n{\nint k;\n};\n" := by
  obtain ⟨h', h1, h2, _, h4⟩ := C49_def_class 3 cfg (e := env) (name := b!"K") (p := { body := 16 }) (l := []) (by decide) rfl rfl (by decide +kernel)
    (by decide +kernel) (by decide) rfl (by decide) (by decide +kernel) (by decide +kernel)
  refine ⟨h', h1, ?_⟩
  have hb : IsBody env.h 16 [17] := one (by decide +kernel)
  have := h4 (fun q hv hc => (by simpa using ctors [16] (by decide +kernel) q hv hc)) (.inl rfl) _
    (C34_body (e := env) hb rfl (ts := [b!"int k;"]) ⟨p_text 17 (by decide +kernel) (.inl rfl), trivial⟩).1
  exact (h2 _ this).print (by decide +kernel) (by decide +kernel)

example : ∃ h', defClass 3 cfg env.h b!"K" { body := 12 } = .ok (19, h') ∧ ctorText (env.on h') (h'.cell 13) = b!"K" := by
  obtain ⟨h', h1, _, h3, _⟩ := C49_def_class 3 cfg (e := env) (name := b!"K") (p := { body := 12 }) (l := []) (by decide) rfl rfl (by decide +kernel)
    (by decide +kernel) (by decide) rfl (by decide) (by decide +kernel) (by decide +kernel)
  exact ⟨h', h1, h3 13 (by decide +kernel) rfl (.inl rfl)⟩

/-- `def_typedef` of a struct: the semicolon is in the wrong place. -/
example : Yields env (defTypedef cfg env.h b!"B" 18 0 0) b!"typedef struct A\n{\nint m;\n};\n B;\n" := by
  have p18 : Prints env .code 18 (b!"struct A\n{\nint m;\n" ++ b!"};\n") :=
    (C45_struct (e := env) (p := 18) (l := []) (ps := []) (ts := []) (pt := []) ⟨by decide +kernel, rfl, rfl⟩ p_sbody (by decide +kernel) rfl (by decide +kernel)
      (by decide +kernel) (by decide +kernel) (fun h => absurd rfl h) (by decide +kernel)).print (by decide +kernel) (by decide +kernel)
  exact C49_def_typedef_struct_refuted cfg hn (e := env) (name := b!"B") (type := 18) (t := b!"struct A\n{\nint m;\n") (by decide) p18 rfl rfl

end Verif.Ser.DefDemo
