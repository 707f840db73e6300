import Verif.Proof.ParseRun
import Verif.Props.Parsing
import Verif.Model.Serialize
/-!
# C50-C54: cases that meet the hypotheses, and what is false

The library as `init` leaves it (`C53_init`), with an array of 24 tokens.
-/
namespace Verif.Parse
open Verif.Lex (Tok)
open Verif.Ast P

/-- Parse a text in a library just initialised, and print the code. -/
def shown (run : World → Bytes → Res (Nat × World)) (d : Bytes) : Res Bytes :=
  (initial true 24 true).bind fun w => (run w d).bind fun r => Ser.codeToStr { h := r.2.heap } 6 r.1

/-- The same, in a library in which a macro has been registered. -/
def withMacro (name : Bytes) (m : Lex.MacroInfo) (w : World) : World := { w with env := { w.env with ms := (Crc.crc32 name, m) :: w.env.ms } }

/-- Registering a macro keeps the library ready. -/
theorem ready_macro {w : World} (hw : w.Ready) (name : Bytes) (m : Lex.MacroInfo) : (withMacro name m w).Ready :=
  ⟨hw.fatal, hw.started, hw.index, hw.empty, fun p hp => by
    have := hw.constants p hp
    exact ⟨this.made, this.other, this.global, this.single, this.kind, this.leaf⟩⟩

/-! ## The hypotheses are met: these parses come back -/

example : shown parse_function b!"int f(int a, int b = 3);" = .ok b!"int f( int a,  int b = 3);\n" := by decide +kernel
example : shown parse_struct b!"struct A { int a; int b; };" = .ok b!"struct A\n{\nint a;\nint b;\n\n};\n" := by decide +kernel
example : shown parse_global_body b!"int a;\n\nint f(); struct S;" = .ok b!"int a;\n\nint f();\nstruct S;\n" := by decide +kernel

/-- The tokens of a content in a library just initialised. -/
def firstTokens (d : Bytes) : Res (List Tok) :=
  (initial true 24 true).bind fun w => (w.lex d).bind fun | some w => .ok w.env.cells | none => .stop

/-- The hypotheses of `C54_terminates`. -/
example : ∀ w, initial true 24 true = .ok w → NoToken w b!"struct A { int a; int f(); };" .Decl_Operator := by
  intro w hw w1 h1 t ht
  have : (match firstTokens b!"struct A { int a; int f(); };" with | .ok l => l.all (·.type ≠ .Decl_Operator) | _ => false) = true := by
    decide +kernel
  unfold firstTokens at this
  rw [hw] at this
  simp only [Res.ok_bind, h1, List.all_eq_true, decide_eq_true_eq] at this
  exact this t ht

/-! ## C50 is false of `t_empty` -/

/-- A typedef of a macro alone makes the typedef the parent of the constant `t_empty`, which had another one. -/
theorem C50_empty_parent : ∃ w w' p, initial true 24 true = .ok w ∧
    parse_typedef (withMacro b!"M" ⟨1, 0⟩ w) b!"typedef M;" = .ok (p, w') ∧ (withMacro b!"M" ⟨1, 0⟩ w).Ready ∧
    (w.heap.cell w.env.tEmpty).parent = 1 ∧ (w'.heap.cell w.env.tEmpty).parent = p ∧ p ≠ 1 := by
  obtain ⟨w, hw, hr⟩ := C53_init true 24 true
  have : ((initial true 24 true).bind fun w => (parse_typedef (withMacro b!"M" ⟨1, 0⟩ w) b!"typedef M;").bind fun r =>
      .ok (decide ((w.heap.cell w.env.tEmpty).parent = 1 ∧ (r.2.heap.cell w.env.tEmpty).parent = r.1 ∧ r.1 ≠ 1))) = .ok true := by decide +kernel
  rw [hw, Res.ok_bind] at this
  obtain ⟨r, h1, h2⟩ := Res.bind_eq_ok.mp this
  have h3 := Res.ok.inj h2
  simp only [decide_eq_true_eq] at h3
  exact ⟨w, r.2, r.1, hw, h1, ready_macro hr _ _, h3⟩

/-! ## C54 is false with `const` or `operator` -/

/-- `parse_function` never ends on a text whose first token is the keyword `const`. -/
theorem C54_const_function {w w1 : World} {d : Bytes} {t : Tok} {ts rest : List Tok} (hd : d ≠ []) (h : w.lex d = .ok (some w1))
    (hc : w1.env.cells = t :: ts ++ rest) (hn : w1.env.num = (t :: ts).length) (ht : t.type = .Spec_Const) (hs : has t Lex.fSpecifier = true)
    (ha : has t Lex.fAttribute = false) (hb : w1.env.bytes (.of t) = .ok b!"const") : parse_function w d = .hang := by
  have hf : isFmt t = false := by simp [isFmt, ht]
  unfold parse_function World.parse World.begin
  rw [if_neg hd, h]
  show (parseFunction w1.env ⟨0, w1.heap, w1.scope⟩).bind _ = _
  have H : Here w1.env ⟨0, w1.heap, b!"parser_parse_function" :: w1.scope⟩ (t :: ts) rest := ⟨hc, by rw [hn]; simp⟩
  unfold parseFunction inScope
  simp only [bindP, getP, setP, Res.ok_bind, H.exportFlag hf (by simp [ht]), H.attributes hf ha, specifiersLoop]
  rw [loop_stuck, Res.hang_bind]
  · rfl
  · simp only [bindP, H.leftAnd hf, Res.ok_bind, iteP, hs, if_true, H.cur hf, bytes, hb]
    rw [show stuckAtConst functionSpecs (strToSpecifier b!"const") = some (some false) by decide +kernel]
    rfl

/-- Such a text, for whatever array of tokens. -/
theorem C54_const_case : shown parse_function b!"const int f();" = .hang := by decide +kernel

/-- `parse_operator` has the same loop; and a comment between `operator` and `*` makes another one turn for ever, in every function that
meets it. -/
theorem C54_operator_case : shown parse_operator b!"const int operator+(A a, A b);" = .hang ∧
    shown parse_global_body b!"A operator /* product */ *(A a, A b);" = .hang := by decide +kernel

end Verif.Parse
