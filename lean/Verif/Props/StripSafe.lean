import Verif.Props.Strip
import Verif.Proof.ParseLeaf
/-!
# C55: `parser_strip_formatting` ends, stays inside its text and does not make it longer
-/
namespace Verif.Strip

theorem stringEnd_le {raw : Bytes} : ∀ {n p : Nat}, p ≤ raw.length → stringEnd raw n p ≤ raw.length
  | 0, _, h => h
  | n + 1, p, h => by
    unfold stringEnd
    split
    · exact h
    · rename_i b hb
      have hlt : p < raw.length := (List.getElem?_eq_some_iff.1 hb).1
      split
      · exact h
      · split
        · exact stringEnd_le (by omega)
        · exact stringEnd_le (by omega)

theorem charEnd_le {raw : Bytes} : ∀ {n p : Nat}, p ≤ raw.length → charEnd raw n p ≤ raw.length
  | 0, _, h => h
  | n + 1, p, h => by
    unfold charEnd
    split
    · exact h
    · rename_i b hb
      have hlt : p < raw.length := (List.getElem?_eq_some_iff.1 hb).1
      split
      · exact h
      · exact charEnd_le (by omega)

theorem lineEnd_le {raw : Bytes} : ∀ {n p : Nat}, p ≤ raw.length → lineEnd raw n p ≤ raw.length
  | 0, _, h => h
  | n + 1, p, h => by
    unfold lineEnd
    split
    · exact lineEnd_le (by omega)
    · exact h

theorem spaceEnd_le {raw : Bytes} : ∀ {n p : Nat}, p ≤ raw.length → spaceEnd raw n p ≤ raw.length
  | 0, _, h => h
  | n + 1, p, h => by
    unfold spaceEnd
    split
    · exact h
    · rename_i b hb
      have hlt : p < raw.length := (List.getElem?_eq_some_iff.1 hb).1
      split
      · exact spaceEnd_le (by omega)
      · exact h

/-- What holds in every turn: nothing is put out that has not been read. -/
structure Ok (raw : Bytes) (s : St) : Prop where
  pos : s.pos ≤ raw.length
  cut : s.cut ≤ s.pos
  len : s.out.length ≤ s.cut

theorem cutText_length {raw : Bytes} {cut p : Nat} : (cutText raw cut p).length ≤ p - cut := by
  unfold cutText
  simp only [List.length_take]
  omega

theorem addSpace_length {o : Bytes} : (addSpace o).length ≤ o.length + 1 := by
  unfold addSpace
  split
  · omega
  · simp

theorem Ok.flush {raw : Bytes} {s : St} (h : Ok raw s) {p : Nat} (hp : p ≤ raw.length) (hs : s.pos ≤ p) : Ok raw (s.flush raw p) := by
  have := cutText_length (raw := raw) (cut := s.cut) (p := p)
  have h1 := h.cut
  have h2 := h.len
  refine ⟨hp, Nat.le_refl _, ?_⟩
  simp only [St.flush, List.length_append]
  omega

theorem Ok.blank {raw : Bytes} {s : St} (h : Ok raw s) {n : Nat} (hp : s.pos + n ≤ raw.length) (hn : 1 ≤ n) : Ok raw (s.blank raw n) := by
  have := cutText_length (raw := raw) (cut := s.cut) (p := s.pos)
  have h3 := addSpace_length (o := s.out ++ cutText raw s.cut s.pos)
  have h1 := h.cut
  have h2 := h.len
  refine ⟨hp, Nat.le_refl _, ?_⟩
  simp only [St.blank, List.length_append] at h3 ⊢
  omega

theorem Ok.newline {raw : Bytes} {s : St} (h : Ok raw s) {n : Nat} (hp : s.pos + n ≤ raw.length) : Ok raw (s.newline raw n) := by
  have := h.flush hp (Nat.le_add_right _ _)
  exact ⟨this.pos, this.cut, this.len⟩

theorem Ok.backslash {raw : Bytes} {s : St} (h : Ok raw s) (hlt : s.pos < raw.length) : Ok raw (s.backslash raw) := by
  have := cutText_length (raw := raw) (cut := s.cut) (p := s.pos)
  have h1 := h.cut
  have h2 := h.len
  have hskip : s.pos + (if raw[s.pos + 1]? = some 10 then 2 else if raw[s.pos + 1]? = some 13 ∧ raw[s.pos + 2]? = some 10 then 3 else 1) ≤ raw.length := by
    split
    · rename_i e
      have := (List.getElem?_eq_some_iff.1 e).1
      omega
    · split
      · rename_i e
        have := (List.getElem?_eq_some_iff.1 e.2).1
        omega
      · omega
  revert hskip
  unfold St.backslash
  dsimp only
  generalize (if raw[s.pos + 1]? = some 10 then 2 else if raw[s.pos + 1]? = some 13 ∧ raw[s.pos + 2]? = some 10 then 3 else 1) = skip
  intro hskip
  refine ⟨?_, Nat.le_refl _, ?_⟩
  · simp only
    split <;> omega
  · simp only [List.length_append]
    omega

/-- The text has no `/*` at this place. -/
def NoComment (raw : Bytes) : Prop := ∀ i : Nat, ¬ (raw[i]? = some 47 ∧ raw[i + 1]? = some 42)

theorem Ok.step {raw : Bytes} {preserve : Bool} {s : St} {b : UInt8} (h : Ok raw s) (hc : NoComment raw) (hb : raw[s.pos]? = some b) :
    Ok raw (step raw preserve s b) := by
  have hlt : s.pos < raw.length := (List.getElem?_eq_some_iff.1 hb).1
  unfold Strip.step
  dsimp only
  split
  · have h1 := stringEnd_le (raw := raw) (n := raw.length + 1) (p := s.pos + 1) (by omega)
    have h2 := le_stringEnd (raw := raw) (n := raw.length + 1) (p := s.pos + 1)
    refine h.flush ?_ ?_ <;> split <;> omega
  split
  · have h1 := charEnd_le (raw := raw) (n := raw.length + 1) (p := s.pos + 1) (by omega)
    have h2 := le_charEnd (raw := raw) (n := raw.length + 1) (p := s.pos + 1)
    refine h.flush ?_ ?_ <;> split <;> omega
  split
  · rename_i e
    exact absurd ⟨by rw [hb, e.1], e.2⟩ (hc s.pos)
  split
  · rename_i e
    have h0 := (List.getElem?_eq_some_iff.1 e.2).1
    have h1 := lineEnd_le (raw := raw) (n := raw.length + 1) (p := s.pos + 2) (by omega)
    have h2 := le_lineEnd (raw := raw) (n := raw.length + 1) (p := s.pos + 2)
    have := h.flush (p := if lineEnd raw (raw.length + 1) (s.pos + 2) < raw.length then lineEnd raw (raw.length + 1) (s.pos + 2) + 1
      else lineEnd raw (raw.length + 1) (s.pos + 2)) (by split <;> omega) (by split <;> omega)
    exact ⟨this.pos, this.cut, this.len⟩
  split
  · exact h.blank (by omega) (Nat.le_refl _)
  split
  · rename_i e
    have h0 := (List.getElem?_eq_some_iff.1 e.2).1
    split
    · exact h.newline (by omega)
    · exact h.blank (by omega) (by omega)
  split
  · split
    · exact h.newline (by omega)
    · exact h.blank (by omega) (Nat.le_refl _)
  split
  · exact h.backslash hlt
  split
  · have h1 := spaceEnd_le (raw := raw) (n := raw.length + 1) (p := s.pos + 1) (by omega)
    have h2 := le_spaceEnd (raw := raw) (n := raw.length + 1) (p := s.pos + 1)
    have h3 := cutText_length (raw := raw) (cut := s.cut) (p := s.pos)
    have h4 := addSpace_length (o := s.out ++ cutText raw s.cut s.pos)
    have h5 := h.cut
    have h6 := h.len
    refine ⟨h1, Nat.le_refl _, ?_⟩
    simp only [List.length_append] at h4 ⊢
    omega
  · exact ⟨hlt, Nat.le_succ_of_le h.cut, h.len⟩

theorem loop_ok {raw : Bytes} {preserve : Bool} (hc : NoComment raw) : ∀ {n : Nat} {s : St}, Ok raw s → raw.length ≤ s.pos + n →
    ∃ s', loop raw preserve (n + 1) s = .ok s' ∧ Ok raw s' := by
  intro n
  induction n with
  | zero =>
    intro s h hn
    have := h.pos
    refine ⟨s, ?_, h⟩
    unfold loop
    rw [if_pos (by omega)]
  | succ n ih =>
    intro s h hn
    have hp := h.pos
    by_cases he : s.pos = raw.length
    · refine ⟨s, ?_, h⟩
      unfold loop
      rw [if_pos he]
    · have hlt : s.pos < raw.length := by omega
      have hb : raw[s.pos]? = some raw[s.pos] := List.getElem?_eq_getElem hlt
      have hs := step_pos (raw := raw) (preserve := preserve) (s := s) (b := raw[s.pos])
      obtain ⟨s', h1, h2⟩ := ih (h.step (preserve := preserve) hc hb) (by omega)
      refine ⟨s', ?_, h2⟩
      unfold loop
      rw [if_neg he, hb]
      exact h1

/-- C55: on every text without block comments the function succeeds, reading only the text, whatever is quoted, escaped or left open; and the
result is not longer than the text. -/
theorem C55_safe {raw : Bytes} (hc : ∀ i : Nat, ¬ (raw[i]? = some 47 ∧ raw[i + 1]? = some 42)) (preserve : Bool) :
    ∃ out, strip raw preserve = .ok out ∧ out.length ≤ raw.length := by
  unfold strip
  split
  · rename_i h
    exact ⟨[], rfl, by rw [h]; exact Nat.le_refl _⟩
  · rename_i h0
    have hpos : 0 < raw.length := List.length_pos_iff.2 h0
    dsimp only
    have key : ∀ p, p ≤ 1 → ∃ out, ((loop raw preserve (raw.length + 2) ⟨p, p, false, []⟩).bind fun s =>
        Res.ok (if s.cut < raw.length then s.out ++ cutText raw s.cut raw.length else s.out)) = .ok out ∧ out.length ≤ raw.length := by
      intro p hp
      obtain ⟨s', h1, h2⟩ := loop_ok (preserve := preserve) hc (n := raw.length + 1) (s := ⟨p, p, false, []⟩)
        ⟨by simp only; omega, Nat.le_refl _, by simp⟩ (by omega)
      refine ⟨_, by rw [h1, Res.ok_bind], ?_⟩
      have hl := h2.len
      have h3 := h2.cut
      have h4 := h2.pos
      have := cutText_length (raw := raw) (cut := s'.cut) (p := raw.length)
      split
      · simp only [List.length_append]
        omega
      · omega
    split
    · exact key 1 (Nat.le_refl _)
    · exact key 0 (Nat.zero_le _)

/-- C55: it ends on every text. -/
theorem C55_terminates (raw : Bytes) (preserve : Bool) : strip raw preserve ≠ .hang := strip_ne_hang

example : strip b!"\"open 'x\\" = .ok b!"\"open 'x\\" := by decide +kernel

/-! ## Where it fails -/

/-- `/*/` is taken as a complete comment: the blanks behind it are stripped although they are inside the comment. -/
theorem C55_short_comment : strip b!"/*/ a  b */" = .ok b!"/*/ a b */" := by decide +kernel

/-- A string that ends with an escaped backslash is not seen to end: the blanks behind it are kept. -/
theorem C55_escaped_backslash : strip b!"\"\\\\\"  b" = .ok b!"\"\\\\\"  b" ∧ strip b!"'\\\\'  b" = .ok b!"'\\\\'  b" := by decide +kernel

/-- A backslash that is not followed by a newline is dropped. -/
theorem C55_backslash_lost : strip b!"a\\b" = .ok b!"ab" := by decide +kernel

/-- A tab followed by a single space becomes two spaces, which another strip makes one: stripping twice is not the same as stripping once. -/
theorem C55_two_spaces : strip b!"a\t b" = .ok b!"a  b" ∧ strip b!"a  b" = .ok b!"a b" := by decide +kernel

/-- Of two leading blanks one space stays. -/
theorem C55_leading : strip b!"  a" = .ok b!" a" ∧ strip b!"\ta" = .ok b!" a" := by decide +kernel

/-! ## Examples -/

/-- The hypotheses of `C55_words` are met by `a "x  y"`, `/* b  c */` and a character with an escaped quote, separated by different gaps. -/
example : Word b!"\"x  \\\" y\"" ∧ Word b!"/* b  c */" ∧ Word b!"'\\''" ∧ Word b!"a/b" ∧ Gap b!"\t\n\t" ∧ Gap b!"  \t\n " := by
  refine ⟨?_, ?_, ?_, ?_, ?_, ?_⟩
  · refine .one (.literal (.string (b := b!"x  \\\" y") ?_ (by decide)))
    exact .byte (by decide) (by decide) (.byte (by decide) (by decide) (.byte (by decide) (by decide) (.escape (.byte (by decide) (by decide)
      (.byte (by decide) (by decide) .nil)))))
  · exact .one (.comment (b := b!" b  c ") (by decide +kernel))
  · exact .one (.literal (.char (b := b!"\\'") (.escape .nil) (by decide)))
  · exact .cons (.letter (by decide)) (.one (.slash (by decide) (by decide)))
  · exact .tabs (by decide) (by decide)
  · exact .run (by decide) (by decide) (by decide) (by decide) (by decide) (by decide)

example : strip b!"a/b\t\n\t\"x  \\\" y\"  \t\n /* b  c */ '\\''" = .ok b!"a/b \"x  \\\" y\" /* b  c */ '\\''" := by decide +kernel

end Verif.Strip
