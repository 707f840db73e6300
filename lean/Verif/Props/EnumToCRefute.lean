import Verif.Props.EnumToCDemo
/-!
# C69: enums without a type, and where it fails
-/
namespace Verif.EnumToC
open Ast
open Verif.Parse (World initial parse_global_body)

theorem plain_eq {crit : Nat → Nat} {tbl : HTable Bytes} (h : HTable.Holds tbl (fun _ => none)) {u : Bytes} (hl : (b!"typedef enum " ++ u ++ b!" " ++ u ++ b!";").length ≤ Fmt.printfMax) :
    ∃ tbl', TokenFmt.tokenFmtVa crit Fmt.printfMax tbl [(b!"type" ++ [0], u), (b!"name" ++ [0], u)] (plainTemplate ++ [0]) = .ok (b!"typedef enum " ++ u ++ b!" " ++ u ++ b!";", tbl') := by
  obtain ⟨tbl', h1, -⟩ := TokenFmt.C19_substitution crit Fmt.printfMax tbl h [(b!"type", u), (b!"name", u)]
    (by
      intro p hp
      simp only [List.mem_cons, List.not_mem_nil, or_false] at hp
      rcases hp with rfl | rfl
      · show (0 : UInt8) ∉ b!"type"; decide
      · show (0 : UInt8) ∉ b!"name"; decide)
    [.lit b!"typedef enum ", .tok b!"type" u, .lit b!" ", .tok b!"name" u, .lit b!";"]
    (by
      intro p hp
      simp only [List.mem_cons, List.not_mem_nil, or_false] at hp
      rcases hp with rfl | rfl | rfl | rfl | rfl
      · exact ⟨by decide, by decide⟩
      · exact ⟨by decide, by decide, by simp [TokenFmt.binding]⟩
      · exact ⟨by decide, by decide⟩
      · exact ⟨by decide, by decide, by simp [TokenFmt.binding]⟩
      · exact ⟨by decide, by decide⟩)
    (by
      have key : ∀ x ∈ [b!"type", b!"name", b!"type", b!"name"], ∀ y ∈ [b!"type", b!"name", b!"type", b!"name"], Crc.crc32 x = Crc.crc32 y → x = y := by decide +kernel
      exact key)
    (by simpa [TokenFmt.Piece.dst] using hl)
  refine ⟨tbl', ?_⟩
  have e : [TokenFmt.Piece.lit b!"typedef enum ", .tok b!"type" u, .lit b!" ", .tok b!"name" u, .lit b!";"].flatMap TokenFmt.Piece.dst = b!"typedef enum " ++ u ++ b!" " ++ u ++ b!";" := by simp [TokenFmt.Piece.dst]
  rw [e] at h1
  rw [← h1]
  simp [TokenFmt.cstr, TokenFmt.Piece.src, plainTemplate]

/-- For an enum without a type the name is declared, and the enum stays as it is. -/
theorem C69_plain {crit : Nat → Nat} {fuel : Nat} {lt : Bool} {null : Nat → Bool} {tbl : HTable Bytes} (h : HTable.Holds tbl (fun _ => none)) {w : World} {n : Node} (ht : n.typ = 0)
    (hl : (b!"typedef enum " ++ n.name ++ b!" " ++ n.name ++ b!";").length ≤ Fmt.printfMax) (q : Nat) :
    ∃ tbl', typedefCode crit fuel lt null tbl w n = (Parse.parse_typedef w (b!"typedef enum " ++ n.name ++ b!" " ++ n.name ++ b!";")).bind (fun r => .ok (r.1, tbl', r.2)) ∧
      exchange crit w.env.cfg tbl' w.heap q n = .ok (tbl', w.heap) := by
  obtain ⟨tbl', h1⟩ := plain_eq (crit := crit) h hl
  refine ⟨tbl', ?_, by simp [exchange, ht]⟩
  unfold typedefCode
  simp only [ht, ne_eq, not_true_eq_false, if_false, Res.bind_eq, Res.pure_eq]
  rw [h1, Res.ok_bind]

/-- The hypotheses are met. -/
example : ∃ tbl, HTable.initReserve 8 = .ok tbl ∧ HTable.Holds tbl (fun _ : Nat => (none : Option Bytes)) ∧
    ({ name := b!"E" } : Node).typ = 0 ∧ (b!"typedef enum " ++ b!"E" ++ b!" " ++ b!"E" ++ b!";").length ≤ 131000 := by
  obtain ⟨tbl, e0, hw0, hk0, -⟩ := HTable.init_wf (α := Bytes) (n := 8) (by decide)
  exact ⟨tbl, e0, ⟨hw0, fun x => by rw [hk0]; rfl⟩, rfl, by decide⟩

/-! ## Where it fails -/

/-- C69 is false of `enum class`: the macro is not printed, and C takes the enum for an `int`. -/
theorem C69_class_text_refuted : converted b!"enum class E : u8 { A, B };" 0 = .ok b!"enum E\n{\nA,B\n};\ntypedef u8 E;\n" := by decide +kernel

/-- C69 is false of a file in which a comment stands where the name for the type ends: the token array is not cleared, the comment is taken for one behind the name, and its text is
looked for in a content that is no longer being read. -/
theorem C69_stale_comment_refuted : converted b!"const int a; // c\nenum E : u8 { A, B };" 1 = .ub := by decide +kernel

end Verif.EnumToC
