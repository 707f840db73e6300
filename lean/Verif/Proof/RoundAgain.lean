import Verif.Props.RoundSpec
/-!
# C59: what comes back
-/
namespace Verif.Round
open Verif.Lex (Macros)
open Verif.Parse (Place)

theorem closed_ok {ms : Macros} {p : Place} {b : Bool} {x : Body} (h : Body.Ok ms p b x) : Body.Ok ms p b (x.closed b) := by
  induction h with
  | @nil p b =>
    cases b
    · exact .newline .nil
    · exact .nil
  | newline _ ih => exact .newline ih
  | comment h1 _ ih => exact .comment h1 ih
  | label _ ih => exact .label ih
  | var h1 h2 _ ih => exact .var h1 h2 ih
  | member h1 _ ih => exact .member h1 ih
  | fn h1 h2 _ ih => exact .fn h1 h2 ih
  | alias h1 h2 h3 h4 _ ih => exact .alias h1 h2 h3 h4 ih
  | forward h1 _ ih => exact .forward h1 ih
  | enumFwd h1 _ ih => exact .enumFwd h1 ih
  | enum h1 h2 _ ih => exact .enum h1 h2 ih
  | record h1 h2 _ _ ih => exact .record h1 h2 ih
  | union h1 h2 _ _ ih => exact .union h1 h2 ih
  | space h1 h2 h3 _ _ ih => exact .space h1 h2 h3 ih
  | linkage h1 h2 h3 _ _ ih => exact .linkage h1 h2 h3 ih

theorem again_ok {ms : Macros} {p : Place} {b : Bool} {x : Body} (h : Body.Ok ms p b x) : Body.Ok ms p b x.again := by
  induction h with
  | nil => exact .nil
  | newline _ ih => exact .newline ih
  | comment h1 _ ih => exact .comment h1 ih
  | label _ ih => exact .label ih
  | var h1 h2 _ ih => exact .var h1 h2 ih
  | member h1 _ ih => exact .member h1 ih
  | fn h1 h2 _ ih => exact .fn h1 h2 ih
  | alias h1 h2 h3 h4 _ ih => exact .alias h1 h2 h3 h4 ih
  | forward h1 _ ih => exact .forward h1 ih
  | enumFwd h1 _ ih => exact .enumFwd h1 ih
  | enum h1 h2 _ ih => exact .enum h1 h2 ih
  | record h1 _ _ ih1 ih => exact .record h1 (closed_ok ih1) ih
  | union h1 _ _ ih1 ih => exact .union h1 (closed_ok ih1) ih
  | space h1 h2 _ _ ih1 ih => exact .space h1 h2 (closed_ok ih1) ih
  | linkage h1 h2 _ _ ih1 ih => exact .linkage h1 h2 (closed_ok ih1) ih

theorem closed_text (x : Body) : ∀ b, (x.closed b).text = x.text ++ if bodyEnd b x then [] else b!"\n" := by
  induction x with
  | nil => intro b; cases b <;> rfl
  | label a r ih => intro b; simp only [Body.closed, Body.text, bodyEnd, ih, List.append_assoc]; rfl
  | newline r ih => intro b; simp only [Body.closed, Body.text, bodyEnd, ih, List.append_assoc]; rfl
  | comment _ r ih => intro b; simp only [Body.closed, Body.text, bodyEnd, ih, List.append_assoc]; rfl
  | var _ r ih => intro b; simp only [Body.closed, Body.text, bodyEnd, ih, List.append_assoc]; rfl
  | fn _ r ih => intro b; simp only [Body.closed, Body.text, bodyEnd, ih, List.append_assoc]; rfl
  | alias _ r ih => intro b; simp only [Body.closed, Body.text, bodyEnd, ih, List.append_assoc]; rfl
  | forward _ _ r ih => intro b; simp only [Body.closed, Body.text, bodyEnd, ih, List.append_assoc]; rfl
  | enumFwd _ r ih => intro b; simp only [Body.closed, Body.text, bodyEnd, ih, List.append_assoc]; rfl
  | enum _ r ih => intro b; simp only [Body.closed, Body.text, bodyEnd, ih, List.append_assoc]; rfl
  | record _ _ r _ ih => intro b; simp only [Body.closed, Body.text, bodyEnd, ih, List.append_assoc]; rfl
  | union _ _ r _ ih => intro b; simp only [Body.closed, Body.text, bodyEnd, ih, List.append_assoc]; rfl
  | space _ _ r _ ih => intro b; simp only [Body.closed, Body.text, bodyEnd, ih, List.append_assoc]; rfl
  | linkage _ _ r _ ih => intro b; simp only [Body.closed, Body.text, bodyEnd, ih, List.append_assoc]; rfl

theorem closed_end (x : Body) : ∀ b, bodyEnd b (x.closed b) = bodyEnd b x ∧ (x.closed b).blanks = x.blanks ∧ (bodyEnd b x = true → x.closed b = x) := by
  induction x with
  | nil => intro b; cases b <;> simp [Body.closed, bodyEnd, Body.blanks]
  | label a r ih => intro b; have := ih true; simp only [Body.closed, bodyEnd, Body.blanks, this.1, this.2.1, true_and]; exact fun h => by rw [this.2.2 h]
  | record _ _ r _ ih => intro b; have := ih false; simp only [Body.closed, bodyEnd, Body.blanks, this.1, this.2.1, true_and]; exact fun h => by rw [this.2.2 h]
  | union _ _ r _ ih => intro b; have := ih false; simp only [Body.closed, bodyEnd, Body.blanks, this.1, this.2.1, true_and]; exact fun h => by rw [this.2.2 h]
  | space _ _ r _ ih => intro b; have := ih false; simp only [Body.closed, bodyEnd, Body.blanks, this.1, this.2.1, true_and]; exact fun h => by rw [this.2.2 h]
  | linkage _ _ r _ ih => intro b; have := ih false; simp only [Body.closed, bodyEnd, Body.blanks, this.1, this.2.1, true_and]; exact fun h => by rw [this.2.2 h]
  | newline r ih => intro b; have := ih false; simp only [Body.closed, bodyEnd, Body.blanks, this.1, this.2.1, true_and]; exact fun h => by rw [this.2.2 h]
  | comment _ r ih => intro b; have := ih false; simp only [Body.closed, bodyEnd, Body.blanks, this.1, this.2.1, true_and]; exact fun h => by rw [this.2.2 h]
  | var _ r ih => intro b; have := ih false; simp only [Body.closed, bodyEnd, Body.blanks, this.1, this.2.1, true_and]; exact fun h => by rw [this.2.2 h]
  | fn _ r ih => intro b; have := ih false; simp only [Body.closed, bodyEnd, Body.blanks, this.1, this.2.1, true_and]; exact fun h => by rw [this.2.2 h]
  | alias _ r ih => intro b; have := ih false; simp only [Body.closed, bodyEnd, Body.blanks, this.1, this.2.1, true_and]; exact fun h => by rw [this.2.2 h]
  | forward _ _ r ih => intro b; have := ih false; simp only [Body.closed, bodyEnd, Body.blanks, this.1, this.2.1, true_and]; exact fun h => by rw [this.2.2 h]
  | enumFwd _ r ih => intro b; have := ih false; simp only [Body.closed, bodyEnd, Body.blanks, this.1, this.2.1, true_and]; exact fun h => by rw [this.2.2 h]
  | enum _ r ih => intro b; have := ih false; simp only [Body.closed, bodyEnd, Body.blanks, this.1, this.2.1, true_and]; exact fun h => by rw [this.2.2 h]

theorem again_end (x : Body) : ∀ b, bodyEnd b x.again = bodyEnd b x := by
  induction x with
  | nil => intro b; rfl
  | label a r ih => intro b; exact ih true
  | record _ _ r _ ih => intro b; exact ih false
  | union _ _ r _ ih => intro b; exact ih false
  | space _ _ r _ ih => intro b; exact ih false
  | linkage _ _ r _ ih => intro b; exact ih false
  | newline r ih => intro b; exact ih false
  | comment _ r ih => intro b; exact ih false
  | var _ r ih => intro b; exact ih false
  | fn _ r ih => intro b; exact ih false
  | alias _ r ih => intro b; exact ih false
  | forward _ _ r ih => intro b; exact ih false
  | enumFwd _ r ih => intro b; exact ih false
  | enum _ r ih => intro b; exact ih false

theorem again_blanks (x : Body) : x.again.blanks = x.blanks := by
  have key : ∀ i : Body, bodyEnd true (i.again.closed true) = bodyEnd true i ∧ (i.again.closed true).blanks = i.again.blanks := fun i => by
    rw [(closed_end i.again true).1, again_end, (closed_end i.again true).2.1]
    exact ⟨rfl, rfl⟩
  induction x with
  | nil => rfl
  | label a r ih => exact ih
  | record _ i r ih1 ih => simp only [Body.again, Body.blanks, (key i).1, (key i).2, ih1, ih]
  | union _ i r ih1 ih => simp only [Body.again, Body.blanks, (key i).1, (key i).2, ih1, ih]
  | space _ i r ih1 ih => simp only [Body.again, Body.blanks, (key i).1, (key i).2, ih1, ih]
  | linkage _ i r ih1 ih => simp only [Body.again, Body.blanks, (key i).1, (key i).2, ih1, ih]
  | newline r ih => exact ih
  | comment _ r ih => exact ih
  | var _ r ih => exact ih
  | fn _ r ih => exact ih
  | alias _ r ih => exact ih
  | forward _ _ r ih => exact ih
  | enumFwd _ r ih => exact ih
  | enum _ r ih => exact ih

theorem again_flat (x : Body) : x.blanks = 0 → x.again = x := by
  have key : ∀ i : Body, (i.blanks = 0 → i.again = i) → (if bodyEnd true i then 0 else 1) + i.blanks = 0 → i.again.closed true = i := by
    intro i ih h
    rw [ih (by omega)]
    refine (closed_end i true).2.2 ?_
    cases hb : bodyEnd true i with
    | true => rfl
    | false => rw [hb] at h; simp at h
  induction x with
  | nil => intro _; rfl
  | label a r ih => intro h; rw [Body.again, ih h]
  | record _ i r ih1 ih => intro h; rw [Body.blanks] at h; rw [Body.again, key i ih1 (by omega), ih (by omega)]
  | union _ i r ih1 ih => intro h; rw [Body.blanks] at h; rw [Body.again, key i ih1 (by omega), ih (by omega)]
  | space _ i r ih1 ih => intro h; rw [Body.blanks] at h; rw [Body.again, key i ih1 (by omega), ih (by omega)]
  | linkage _ i r ih1 ih => intro h; rw [Body.blanks] at h; rw [Body.again, key i ih1 (by omega), ih (by omega)]
  | newline r ih => intro h; rw [Body.again, ih h]
  | comment _ r ih => intro h; rw [Body.again, ih h]
  | var _ r ih => intro h; rw [Body.again, ih h]
  | fn _ r ih => intro h; rw [Body.again, ih h]
  | alias _ r ih => intro h; rw [Body.again, ih h]
  | forward _ _ r ih => intro h; rw [Body.again, ih h]
  | enumFwd _ r ih => intro h; rw [Body.again, ih h]
  | enum _ r ih => intro h; rw [Body.again, ih h]

theorem again_length (x : Body) : x.again.text.length = x.text.length + x.blanks := by
  have key : ∀ i : Body, i.again.text.length = i.text.length + i.blanks → (i.again.closed true).text.length = i.text.length + ((if bodyEnd true i then 0 else 1) + i.blanks) := by
    intro i ih
    rw [closed_text, again_end, List.length_append, ih]
    cases bodyEnd true i <;> simp <;> omega
  induction x with
  | nil => rfl
  | record _ i r ih1 ih => have := key i ih1; simp only [Body.again, Body.text, Body.blanks, List.length_append, this, ih]; omega
  | union _ i r ih1 ih => have := key i ih1; simp only [Body.again, Body.text, Body.blanks, List.length_append, this, ih]; omega
  | space _ i r ih1 ih => have := key i ih1; simp only [Body.again, Body.text, Body.blanks, List.length_append, this, ih]; omega
  | linkage _ i r ih1 ih => have := key i ih1; simp only [Body.again, Body.text, Body.blanks, List.length_append, this, ih]; omega
  | label a r ih => simp only [Body.again, Body.text, Body.blanks, List.length_append, ih]; omega
  | newline r ih => simp only [Body.again, Body.text, Body.blanks, List.length_append, ih]; omega
  | comment _ r ih => simp only [Body.again, Body.text, Body.blanks, List.length_append, ih]; omega
  | var _ r ih => simp only [Body.again, Body.text, Body.blanks, List.length_append, ih]; omega
  | fn _ r ih => simp only [Body.again, Body.text, Body.blanks, List.length_append, ih]; omega
  | alias _ r ih => simp only [Body.again, Body.text, Body.blanks, List.length_append, ih]; omega
  | forward _ _ r ih => simp only [Body.again, Body.text, Body.blanks, List.length_append, ih]; omega
  | enumFwd _ r ih => simp only [Body.again, Body.text, Body.blanks, List.length_append, ih]; omega
  | enum _ r ih => simp only [Body.again, Body.text, Body.blanks, List.length_append, ih]; omega

theorem again_bytes (x : Body) : x.again.text.filter (· ≠ 10) = x.text.filter (· ≠ 10) := by
  have key : ∀ i : Body, i.again.text.filter (· ≠ 10) = i.text.filter (· ≠ 10) → (i.again.closed true).text.filter (· ≠ 10) = i.text.filter (· ≠ 10) := by
    intro i ih
    rw [closed_text, List.filter_append, ih]
    split <;> simp
  induction x with
  | nil => rfl
  | record _ i r ih1 ih => have := key i ih1; simp only [Body.again, Body.text, List.filter_append, this, ih]
  | union _ i r ih1 ih => have := key i ih1; simp only [Body.again, Body.text, List.filter_append, this, ih]
  | space _ i r ih1 ih => have := key i ih1; simp only [Body.again, Body.text, List.filter_append, this, ih]
  | linkage _ i r ih1 ih => have := key i ih1; simp only [Body.again, Body.text, List.filter_append, this, ih]
  | label a r ih => simp only [Body.again, Body.text, List.filter_append, ih]
  | newline r ih => simp only [Body.again, Body.text, List.filter_append, ih]
  | comment _ r ih => simp only [Body.again, Body.text, List.filter_append, ih]
  | var _ r ih => simp only [Body.again, Body.text, List.filter_append, ih]
  | fn _ r ih => simp only [Body.again, Body.text, List.filter_append, ih]
  | alias _ r ih => simp only [Body.again, Body.text, List.filter_append, ih]
  | forward _ _ r ih => simp only [Body.again, Body.text, List.filter_append, ih]
  | enumFwd _ r ih => simp only [Body.again, Body.text, List.filter_append, ih]
  | enum _ r ih => simp only [Body.again, Body.text, List.filter_append, ih]

end Verif.Round
