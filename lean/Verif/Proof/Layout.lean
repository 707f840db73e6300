import Verif.Proof.ReadWorld
import Verif.Props.LayoutSpec
/-!
# Contents written as pieces: white space and tokens
-/
namespace Verif.Lex

theorem word_last {x : Bytes} (h : IsWord x) : ∃ b, x.getLast? = some b ∧ b ≠ 10 := by
  obtain ⟨a, r, rfl, h1, h2⟩ := h
  rw [List.getLast?_cons]
  refine ⟨_, rfl, ?_⟩
  cases hr : r.getLast? with
  | none => simp only [Option.getD_none]; rintro rfl; revert h1; decide
  | some b =>
    simp only [Option.getD_some]
    rintro rfl
    rcases h2 10 (List.mem_of_getLast? hr) with h | h
    · revert h; decide
    · revert h; decide

theorem digits_last {x : Bytes} (h : ∀ b ∈ x, charIsDigit b = true) : x.getLast? ≠ some 10 := fun hh => by
  have := h 10 (List.mem_of_getLast? hh)
  revert this; decide

/-- A token does not end with a line break. -/
theorem reads_last {ms : Macros} {x e r : Bytes} {ty : TokType} {fl : Nat} (h : Reads ms x e r ty fl) (he : e = []) : x.getLast? ≠ some 10 := by
  have hw : ∀ {x : Bytes}, IsWord x → x.getLast? ≠ some 10 := fun h hh => by
    obtain ⟨b, h1, h2⟩ := word_last h
    rw [h1] at hh; cases hh; exact h2 rfl
  cases h with
  | word h => exact hw h
  | keyword h => exact hw h
  | externSpec h => exact hw h
  | externLinkage h => exact hw h
  | macroUse h => exact hw h
  | macroMisused h => exact hw h
  | punct h => 
    have : ∀ a ∈ punctuation, a.1.getLast? ≠ some 10 := by decide
    exact this _ h
  | braceClose h => decide
  | semicolon h => decide
  | string h => cases he
  | char h => rw [List.getLast?_append]; simp
  | charEscape h => simp [List.getLast?_cons, List.getLast?_append]
  | integer _ h => exact digits_last h
  | @based d b w _ hd hb hw' =>
    rw [List.getLast?_cons, List.getLast?_cons]
    simp only [Option.getD_some, ne_eq, Option.some.injEq]
    cases hl : w.getLast? with
    | none => simp only [Option.getD_none]; rintro rfl; revert hb; decide
    | some y =>
      simp only [Option.getD_some]; rintro rfl
      have := hw' 10 (List.mem_of_getLast? hl)
      revert this; decide
  | @decimal x y _ _ hx hy =>
    rw [List.getLast?_append, List.getLast?_cons]
    simp only [Option.some_or, ne_eq, Option.some.injEq]
    cases hl : y.getLast? with
    | none => simp only [Option.getD_none]; decide
    | some y' =>
      simp only [Option.getD_some]; rintro rfl
      exact digits_last hy hl
  | @suffixed x y s _ _ hx hy hs =>
    rw [List.getLast?_append]
    simp only [List.getLast?_singleton, Option.some_or, ne_eq, Option.some.injEq]
    rintro rfl
    revert hs; decide

theorem reads_text {ms : Macros} {x e r : Bytes} {ty : TokType} {fl : Nat} (h : Reads ms x e r ty fl) : x ≠ [] := by
  have hw : ∀ {x : Bytes}, IsWord x → x ≠ [] := fun ⟨_, _, h, _⟩ => by rw [h]; simp
  cases h with
  | word h => exact hw h
  | keyword h => exact hw h
  | externSpec h => exact hw h
  | externLinkage h => exact hw h
  | macroUse h => exact hw h
  | macroMisused h => exact hw h
  | punct h => 
    have : ∀ a ∈ punctuation, a.1 ≠ [] := by decide
    exact this _ h
  | integer h => exact h
  | _ => simp

theorem after_pos {w : Bytes} : ∀ {p : Pos}, 0 < p.col → 0 < (p.after w).col := by
  induction w with
  | nil => exact fun h => h
  | cons b w ih =>
    intro p h
    rw [after_cons]
    refine ih ?_
    unfold Pos.step
    split
    · exact Nat.one_pos
    · exact Nat.succ_pos _

/-- Only a line break leads to the first column. -/
theorem after_col {w : Bytes} {p : Pos} (h0 : w ≠ []) (hp : 0 < p.col) (h : (p.after w).col = 1) : w.getLast? = some 10 := by
  obtain ⟨v, b, rfl⟩ : ∃ v b, w = v ++ [b] := ⟨_, _, (List.dropLast_concat_getLast h0).symm⟩
  rw [after_append, after_cons, after_nil] at h
  rw [List.getLast?_concat]
  unfold Pos.step at h
  split at h
  · next hb => rw [hb]
  · have := after_pos (w := v) hp
    simp only at h
    omega

/-- The pieces are read as the tokens. -/
theorem laid_lexes {ms : Macros} {l : List Piece} {w : Bytes} (h : Laid ms l w) : ∀ {p : Pos}, 0 < p.col → (p.col = 1 → NotNext (fun b => b == 13 || b == 10) w) →
    Lexes ms p w (toksAt p l) ms := by
  induction h with
  | nil hg => exact fun _ hp => .done ⟨hg, hp⟩
  | @cons q l w hg hr hn _ ih =>
    intro p hc hp
    have htx := reads_text hr
    have hne : q.all ≠ [] := by unfold Piece.all; simp [htx]
    refine .token ⟨hg, fun hc b hb => ?_⟩ hr (ih (after_pos hc) fun hc1 => hn ?_)
    · refine hp hc b ?_
      unfold Piece.all
      rw [List.append_assoc, List.append_assoc, List.head?_append, hb]
      rfl
    · have := after_col hne hc hc1
      unfold Piece.all at this
      rw [List.getLast?_append] at this
      cases ho : q.over.getLast? with
      | none =>
        rw [ho, List.getLast?_append] at this
        have hl := reads_last hr (List.getLast?_eq_none_iff.mp ho)
        cases hx : q.text.getLast? with
        | none => exact absurd (List.getLast?_eq_none_iff.mp hx) htx
        | some y => rw [hx] at this hl; exact absurd this hl
      | some y => rw [ho] at this; exact this

/-- The tokens of a content that begins with white space. -/
theorem laid_has {ms : Macros} {l : List Piece} {g w : Bytes} (hg : Spaces g) (h : Laid ms l w) (hw : NotNext charIsSpace w) (h0 : l ≠ []) (fatal : Bool) :
    lex fatal ms (g ++ w) = .ok (some (toksAt (Pos.after ⟨0, 1, 1⟩ g) l, ms)) := by
  refine C27_exact fatal hg (laid_lexes h (after_pos Nat.one_pos) fun _ b hb => ?_) hw ?_
  · have := hw b hb
    unfold charIsSpace at this
    simp only [Bool.or_eq_false_iff, beq_eq_false_iff_ne] at this ⊢
    exact ⟨this.1.1.2, this.1.1.1.2⟩
  · cases l with
    | nil => exact absurd rfl h0
    | cons => simp [toksAt]

end Verif.Lex

namespace Verif.Parse
open Verif.Lex (Tok Pos Piece toksAt Laid Spaces NotNext)

theorem laid_hasToks {ms : Lex.Macros} {l : List Piece} {g w : Bytes} (hg : Spaces g) (h : Laid ms l w) (hw : NotNext charIsSpace w) (h0 : l ≠ []) :
    HasToks ms (g ++ w) (toksAt (Pos.after ⟨0, 1, 1⟩ g) l) := ⟨ms, Lex.laid_has hg h hw h0 true⟩

end Verif.Parse
