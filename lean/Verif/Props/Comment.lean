import Verif.Model.Comment
import Verif.Props.Upfront
/-!
# Property C42: comments
-/
namespace Verif.Ast

/-- The specification: the lines of a text, a newline ending each but the last. -/
def linesOf : Bytes → List Bytes
  | [] => [[]]
  | x :: t => if x = 10 then [] :: linesOf t
    else match linesOf t with
      | [] => [[x]]
      | l :: ls => (x :: l) :: ls

/-- The specification: every line after `//`, with a newline. -/
def commentOf (content : Bytes) : Bytes := (linesOf content).flatMap fun l => b!"//" ++ l ++ b!"\n"

theorem linesOf_ne_nil : ∀ t, linesOf t ≠ []
  | [] => by simp [linesOf]
  | x :: t => by
    unfold linesOf
    split
    · simp
    · split <;> simp

/-- A text is a line, or a line, a newline and the rest. -/
theorem linesOf_cases : ∀ (t : Bytes), (10 ∉ t ∧ linesOf t = [t]) ∨ ∃ l r, t = l ++ 10 :: r ∧ 10 ∉ l ∧ linesOf t = l :: linesOf r
  | [] => .inl ⟨by simp, rfl⟩
  | x :: t => by
    by_cases hx : x = 10
    · exact .inr ⟨[], t, by simp [hx], by simp, by simp [linesOf, hx]⟩
    · rcases linesOf_cases t with ⟨h1, h2⟩ | ⟨l, r, h1, h2, h3⟩
      · refine .inl ⟨by simp [h1, Ne.symm hx], ?_⟩
        rw [linesOf, if_neg hx, h2]
      · refine .inr ⟨x :: l, r, by rw [h1]; rfl, by simp [h2, Ne.symm hx], ?_⟩
        rw [linesOf, if_neg hx, h3]

/-- The scan stops at the first newline, if there is one in the text or right after it. -/
theorem cmtScan_newline {d : Nat} {rest : Bytes} : ∀ {l : Bytes} {next length : Nat}, 10 ∉ l → next ≤ length → length ≤ next + 1 →
    (next = length → length = 0) → length + l.length ≤ d → next ≠ d →
    cmtScan d (l ++ 10 :: rest) next length = .ok (length + l.length)
  | [], next, length, _, _, _, _, h3, h4 => by
    unfold cmtScan
    rw [if_neg h4]
    simp
  | x :: l, next, length, hl, h1, h2, h0, h3, h4 => by
    simp only [List.length_cons] at h3
    unfold cmtScan
    rw [if_neg h4]
    simp only [List.cons_append]
    rw [if_neg (fun e => hl (by simp [e])), cmtScan_newline (fun hm => hl (by simp [hm])) (by omega) (by omega) (by omega) (by omega) (by omega)]
    simp; omega

/-- Without a newline the scan runs to the end, and one further. -/
theorem cmtScan_end {z : UInt8} (hz : z ≠ 10) {rest : Bytes} {d : Nat} : ∀ {l : Bytes} {next length : Nat}, 10 ∉ l → length + l.length = d →
    next ≠ d → (length = next + 1 ∨ length = 0) → cmtScan d (l ++ z :: rest) next length = .ok (d + 1)
  | [], next, length, _, h1, h2, h3 => by
    unfold cmtScan
    rw [if_neg h2]
    simp only [List.nil_append, if_neg hz]
    unfold cmtScan
    simp at h1
    rw [if_pos h1, h1]
  | x :: l, next, length, hl, h1, h2, h3 => by
    simp only [List.length_cons] at h1
    unfold cmtScan
    rw [if_neg h2]
    simp only [List.cons_append]
    rw [if_neg (fun e => hl (by simp [e])), cmtScan_end hz (fun hm => hl (by simp [hm])) (by omega) (by omega) (.inl rfl)]

theorem cText_append_zero {l : Bytes} (hz : 0 ∉ l) (r : Bytes) : cText (l ++ 0 :: r) = l := by
  unfold cText
  rw [List.takeWhile_append]
  have := cText_eq hz
  unfold cText at this
  rw [this]
  simp

theorem getLast_flatMap (ls : List Bytes) (acc : Bytes) (h : ls ≠ []) :
    (acc ++ ls.flatMap fun l => b!"//" ++ l ++ b!"\n").getLast? = some 10 := by
  have : ∃ p, (ls.flatMap fun l => b!"//" ++ l ++ b!"\n") = p ++ [10] := by
    obtain ⟨i, x, rfl⟩ : ∃ i x, ls = i ++ [x] := ⟨ls.dropLast, ls.getLast h, (List.dropLast_concat_getLast h).symm⟩
    exact ⟨(i.flatMap fun l => b!"//" ++ l ++ b!"\n") ++ (b!"//" ++ x), by simp⟩
  obtain ⟨p, hp⟩ := this
  rw [hp, ← List.append_assoc, List.getLast?_concat]

/-- The loop over a text that is followed by a NUL. The last line comes out without its newline, which is added afterwards. -/
theorem cmtLoop_spec {rest : Bytes} : ∀ (n : Nat) (t acc : Bytes) (fuel : Nat), t.length ≤ n → 0 ∉ t → (∀ l ∈ linesOf t, l.length + 4 < 131071) →
    t.length < fuel →
    ∃ u, cmtLoop fuel (t ++ 0 :: rest) t.length acc = .ok u ∧ u ++ [10] = acc ++ commentOf t ∧ u.getLast? ≠ some 10 := by
  intro n
  induction n with
  | zero =>
    intro t acc fuel hn hz hl hf
    obtain rfl : t = [] := List.eq_nil_of_length_eq_zero (by omega)
    obtain ⟨f, rfl⟩ : ∃ f, fuel = f + 1 := ⟨fuel - 1, by simp at hf; omega⟩
    refine ⟨acc ++ b!"//", rfl, by simp [commentOf, linesOf], ?_⟩
    have : b!"//" = [47] ++ [47] := rfl
    rw [this, ← List.append_assoc, List.getLast?_concat]
    decide
  | succ n ih =>
    intro t acc fuel hn hz hl hf
    obtain ⟨f, rfl⟩ : ∃ f, fuel = f + 1 := ⟨fuel - 1, by omega⟩
    rcases linesOf_cases t with ⟨h1, h2⟩ | ⟨l, r, h1, h2, h3⟩
    · by_cases ht : t = []
      · subst ht
        refine ⟨acc ++ b!"//", rfl, by simp [commentOf, linesOf], ?_⟩
        have : b!"//" = [47] ++ [47] := rfl
        rw [this, ← List.append_assoc, List.getLast?_concat]
        decide
      have tl : 0 < t.length := List.length_pos_iff.2 ht
      have hlen := hl t (by rw [h2]; simp)
      have hline : cmtLine (t ++ 0 :: rest) (t.length + 1 + 1) = .ok (b!"//" ++ t) := by
        have e : cText ((t ++ 0 :: rest).take (t.length + 1 + 1)) = t := by
          rw [List.take_append, List.take_of_length_le (by omega), show t.length + 1 + 1 - t.length = 1 + 1 by omega]
          exact cText_append_zero hz _
        unfold cmtLine
        simp only [e]
        rw [if_neg (fun hc => hc.2 (by simp)), if_pos]
        have : (b!"//").length = 2 := rfl
        simp only [List.length_append]
        omega
      rw [cmtLoop, cmtScan_end (by decide) h1 (Nat.zero_add _) (by omega) (.inr rfl), Res.ok_bind, hline, Res.ok_bind, if_neg (by omega)]
      refine ⟨_, rfl, by simp [commentOf, h2], ?_⟩
      obtain ⟨i, x, rfl⟩ : ∃ i x, t = i ++ [x] := ⟨t.dropLast, t.getLast ht, (List.dropLast_concat_getLast ht).symm⟩
      rw [← List.append_assoc, ← List.append_assoc, List.getLast?_concat]
      intro e
      injection e with e
      exact h1 (by simp [e])
    · subst h1
      have hlen := hl l (by rw [h3]; simp)
      have hz1 : 0 ∉ l := fun hm => hz (by simp [hm])
      have hz2 : 0 ∉ r := fun hm => hz (by simp [hm])
      have hlt : (l ++ 10 :: r).length = l.length + 1 + r.length := by simp; omega
      have hline : cmtLine ((l ++ 10 :: r) ++ 0 :: rest) (l.length + 1) = .ok (b!"//" ++ l ++ b!"\n") := by
        have e : cText (((l ++ 10 :: r) ++ 0 :: rest).take (l.length + 1)) = l ++ [10] := by
          rw [show (l ++ 10 :: r) ++ 0 :: rest = (l ++ [10]) ++ (r ++ 0 :: rest) by simp, List.take_left' (by simp)]
          exact cText_eq (by simp; intro hm; exact hz1 hm)
        unfold cmtLine
        simp only [e]
        rw [if_neg (fun hc => hc.2 (by simp)), if_pos]
        · simp
        · have : (b!"//").length = 2 := rfl
          simp only [List.length_append, List.length_cons, List.length_nil]
          omega
      obtain ⟨u, e1, e2, e3⟩ := ih r (acc ++ (b!"//" ++ l ++ b!"\n")) f (by omega) hz2 (fun x hx => hl x (by rw [h3]; simp [hx])) (by omega)
      refine ⟨u, ?_, ?_, e3⟩
      · rw [cmtLoop, show (l ++ 10 :: r) ++ 0 :: rest = l ++ 10 :: (r ++ 0 :: rest) by simp,
          cmtScan_newline h2 (Nat.le_refl _) (by omega) (fun _ => rfl) (by omega) (by omega), Res.ok_bind, Nat.zero_add,
          show l ++ 10 :: (r ++ 0 :: rest) = (l ++ 10 :: r) ++ 0 :: rest by simp, hline, Res.ok_bind, if_pos (by omega),
          show ((l ++ 10 :: r) ++ 0 :: rest).drop (l.length + 1) = r ++ 0 :: rest by
            rw [show (l ++ 10 :: r) ++ 0 :: rest = (l ++ [10]) ++ (r ++ 0 :: rest) by simp]
            exact List.drop_left' (by simp),
          show (l ++ 10 :: r).length - (l.length + 1) = r.length by omega]
        exact e1
      · rw [e2]
        simp [commentOf, h3]

/-- C42: a comment of a NUL-terminated text (without further NULs, no line of which overflows the buffer) is a new node holding each
line of the text after `//`, each ending in a newline. An empty text is refused. -/
theorem C42_def_comment (c : Cfg) {h : Heap} (hn : 0 < h.next) (content rest : Bytes) (hz : 0 ∉ content)
    (hl : ∀ l ∈ linesOf content, l.length + 4 < 131071) (fuel : Nat) (hf : content.length < fuel) :
    Constructs c h (defComment fuel c h content (0 :: rest)) (content ≠ [])
      { type := .Comment, name := commentOf content, content := commentOf content } := by
  obtain ⟨u, e1, e2, e3⟩ := cmtLoop_spec (rest := rest) content.length content [] fuel (Nat.le_refl _) hz hl hf
  unfold defComment
  rw [e1]
  simp only [Res.ok_bind]
  rw [if_neg e3, e2]
  exact (constructs_name content (constructs_finish hn _)).of_iff (by simp)

/-- C42: the lines joined by newlines are the text: nothing is lost or added. -/
theorem C42_lines_of : ∀ (t : Bytes), ((linesOf t).intersperse [10]).flatten = t
  | [] => rfl
  | x :: t => by
    have ih := C42_lines_of t
    by_cases hx : x = 10
    · rw [linesOf, if_pos hx]
      cases hl : linesOf t with
      | nil => exact absurd hl (linesOf_ne_nil t)
      | cons l ls =>
        rw [hl] at ih
        simp only [List.intersperse_cons_cons, List.flatten_cons, List.nil_append, ih, hx]
        rfl
    · rw [linesOf, if_neg hx]
      cases hl : linesOf t with
      | nil => exact absurd hl (linesOf_ne_nil t)
      | cons l ls =>
        rw [hl] at ih
        simp only
        cases ls with
        | nil => simpa using ih
        | cons a b => simp at ih ⊢; exact ih

/-- C42, refuted for a view into a longer string: the two bytes after the view get into the comment. -/
theorem C42_slice_refuted (c : Cfg) :
    (defComment 9 c Heap.empty b!"ab" b!"cdef").bind (fun (r, h) => .ok (h.cell r).content) = .ok b!"//abcd\n" := rfl

/-- C42, refuted for a view that ends where the readable memory ends. -/
theorem C42_unterminated_refuted (c : Cfg) : defComment 9 c Heap.empty b!"ab" [] = .ub := rfl

/-- C42: a text that ends in a newline gets one more, empty comment line. -/
theorem C42_trailing_newline_refuted (c : Cfg) :
    (defComment 9 c Heap.empty b!"ab\n" [0]).bind (fun (r, h) => .ok (h.cell r).content) = .ok b!"//ab\n//\n" := rfl

/-- The hypotheses are met by a text of three lines. -/
example : 0 ∉ b!"ab\n\nc" ∧ (∀ l ∈ linesOf b!"ab\n\nc", l.length + 4 < 131071) ∧ commentOf b!"ab\n\nc" = b!"//ab\n//\n//c\n" := by
  refine ⟨by decide, by decide, by decide⟩

end Verif.Ast
