import Verif.Proof.LexExact4
/-!
# C27: the tokens of a text, exactly

`C27_exact`: whatever text `Lexes` describes, `lex` returns exactly the tokens it says, and registers exactly the macros.
-/
namespace Verif.Lex

theorem turn_end {mem : Bytes} {fatal : Bool} {g : Bytes} {p : Pos} {toks : List Tok} {ms : Macros} (hg : GapAt p g) (h0 : g ≠ []) :
    turn mem fatal ⟨⟨g ++ [0], p⟩, toks, ms⟩ = .ok (some ⟨⟨[0], p.after g⟩, toks, ms⟩) := by
  unfold turn
  have hfc : firstColumn ⟨g ++ [0], p⟩ = .ok (⟨g ++ [0], p⟩, none) := by
    unfold firstColumn
    split
    · rename_i hc
      obtain ⟨y, z, rfl⟩ := List.exists_cons_of_ne_nil h0
      have h := hg.2 hc y rfl
      simp at h
      simp [eatIf, Cur.peek, h, Res.ok_bind]
    · rfl
  have hws : skipWs ⟨g ++ [0], p⟩ = .ok ⟨[0], p.after g⟩ := skipWs_eq (r := []) hg.1 (by rintro b ⟨⟩)
  simp only [hfc, hws, Res.ok_bind]
  rw [if_pos (by simp [Cur.left])]

theorem loop_done {mem : Bytes} {fatal : Bool} {fuel : Nat} {p : Pos} {toks : List Tok} {ms : Macros} :
    loop mem fatal fuel ⟨⟨[0], p⟩, toks, ms⟩ = .ok (some ⟨⟨[0], p⟩, toks, ms⟩) := by
  unfold loop
  rw [if_pos (left_nil p)]

/-- A turn, and the rest of the loop. -/
theorem loop_step {ms ms1 ms' : Macros} {p : Pos} {x w : Bytes} {ts1 ts : List Tok} {mem pre : Bytes} {fatal : Bool} {fuel : Nat} {toks : List Tok}
    (ht : Turns ms p x w ts1 ms1) (hx : x ≠ []) (hm : mem = pre ++ (x ++ w ++ [0])) (hp : pre.length = p.off) (hf : (x ++ w).length ≤ fuel)
    (ih : ∀ (pre : Bytes) (toks : List Tok) (fuel : Nat), mem = pre ++ (w ++ [0]) → pre.length = (p.after x).off → w.length ≤ fuel →
      loop mem fatal fuel ⟨⟨w ++ [0], p.after x⟩, toks, ms1⟩ = .ok (some ⟨⟨[0], (p.after x).after w⟩, toks ++ ts, ms'⟩)) :
    loop mem fatal fuel ⟨⟨x ++ w ++ [0], p⟩, toks, ms⟩ = .ok (some ⟨⟨[0], p.after (x ++ w)⟩, toks ++ (ts1 ++ ts), ms'⟩) := by
  obtain ⟨b, x', hb⟩ := List.exists_cons_of_ne_nil hx
  have hl : 0 < x.length := by rw [hb]; simp
  cases fuel with
  | zero => simp at hf; exact absurd hf.1 hx
  | succ fuel =>
    unfold loop
    rw [if_neg (by simp [Cur.left]; omega)]
    simp only [ht mem fatal toks pre hm hp, Res.ok_bind]
    rw [ih (pre ++ x) _ fuel (by rw [hm]; simp) (by rw [after_off]; simp [hp]) (by simp at hf; omega), after_append, List.append_assoc]

theorem turns_newline {ms : Macros} {p : Pos} {nl w : Bytes} (hc : p.col = 1) (hn : nl = [10] ∨ nl = [13, 10]) :
    Turns ms p nl w [tokAt p nl.length .NewLine 0] ms := by
  intro mem fatal toks pre hm hp
  unfold turn
  have hfc : firstColumn ⟨nl ++ w ++ [0], p⟩ = .ok (⟨w ++ [0], p.after nl⟩, some (tokAt p nl.length .NewLine 0)) := by
    unfold firstColumn
    rw [if_pos hc]
    rcases hn with rfl | rfl <;> rfl
  simp only [hfc, Res.ok_bind]

theorem lexes_loop {ms ms' : Macros} {p : Pos} {w : Bytes} {ts : List Tok} (h : Lexes ms p w ts ms') :
    ∀ (mem : Bytes) (fatal : Bool) (pre : Bytes) (toks : List Tok) (fuel : Nat), mem = pre ++ (w ++ [0]) → pre.length = p.off → w.length ≤ fuel →
      loop mem fatal fuel ⟨⟨w ++ [0], p⟩, toks, ms⟩ = .ok (some ⟨⟨[0], p.after w⟩, toks ++ ts, ms'⟩) := by
  induction h with
  | @done ms p g hg =>
    intro mem fatal pre toks fuel hm hp hf
    by_cases h0 : g = []
    · subst h0
      rw [List.nil_append, List.append_nil, after_nil]
      exact loop_done
    · obtain ⟨b, g', hb⟩ := List.exists_cons_of_ne_nil h0
      cases fuel with
      | zero => simp at hf; exact absurd hf h0
      | succ fuel =>
        unfold loop
        have : 0 < g.length := by rw [hb]; simp
        rw [if_neg (by simp [Cur.left]; omega), turn_end hg h0]
        simp only [Res.ok_bind, loop_done, List.append_nil]
  | @newline ms p w ts ms' hc _ ih =>
    intro mem fatal pre toks fuel hm hp hf
    exact loop_step (x := [10]) (ts1 := [tokAt p 1 .NewLine 0]) (turns_newline hc (.inl rfl)) (by simp) hm hp hf
      (fun pre toks fuel h1 h2 h3 => ih mem fatal pre toks fuel h1 h2 h3)
  | @newlineCrlf ms p w ts ms' hc _ ih =>
    intro mem fatal pre toks fuel hm hp hf
    exact loop_step (x := [13, 10]) (ts1 := [tokAt p 2 .NewLine 0]) (turns_newline hc (.inr rfl)) (by simp) hm hp hf
      (fun pre toks fuel h1 h2 h3 => ih mem fatal pre toks fuel h1 h2 h3)
  | @token ms p g x e w ty fl ts ms' hg hr _ ih =>
    intro mem fatal pre toks fuel hm hp hf
    obtain ⟨b, x', hb, _⟩ := reads_head hr
    exact loop_step (turns_token hg hr) (by rw [hb]; simp) hm hp hf (fun pre toks fuel h1 h2 h3 => ih mem fatal pre toks fuel h1 h2 h3)
  | @macroLine ms p g x nl w m tn ts ms' hg h1 h2 h3 h4 h5 h6 h7 _ ih =>
    intro mem fatal pre toks fuel hm hp hf
    exact loop_step (turns_macroLine hg h1 h2 h3 h4 h5 h6 h7) (by simp [h7]) hm hp hf
      (fun pre toks fuel h1 h2 h3 => ih mem fatal pre toks fuel h1 h2 h3)
  | @comment ms p g x w ts ms' hg hc _ ih =>
    intro mem fatal pre toks fuel hm hp hf
    obtain ⟨x', hx⟩ := comment_head hc
    exact loop_step (turns_comment hg hc) (by simp [hx]) hm hp hf (fun pre toks fuel h1 h2 h3 => ih mem fatal pre toks fuel h1 h2 h3)
  | @directive ms p x nl w td tn ts ms1 ms' hd hb _ ih =>
    intro mem fatal pre toks fuel hm hp hf
    have hx : x ≠ [] := by cases hd <;> simp
    exact loop_step (turns_directive hd hb) (by simp [hx]) hm hp hf (fun pre toks fuel h1 h2 h3 => ih mem fatal pre toks fuel h1 h2 h3)

/-- White space `g` and a text `w` that begins with something else and has tokens: `lex` returns exactly them. -/
theorem C27_exact {ms ms' : Macros} {g w : Bytes} {ts : List Tok} (fatal : Bool) (hg : Spaces g)
    (h : Lexes ms (Pos.after ⟨0, 1, 1⟩ g) w ts ms') (hw : NotNext charIsSpace w) (h0 : ts ≠ []) :
    lex fatal ms (g ++ w) = .ok (some (ts, ms')) := by
  have hp : g.length = (Pos.after ⟨0, 1, 1⟩ g).off := by rw [after_off]; simp
  have hne : w ≠ [] := by
    intro hw0
    have := lexes_loop h (g ++ (w ++ [0])) fatal g [] 0 rfl hp (by simp [hw0])
    subst hw0
    rw [List.nil_append, loop_done] at this
    simp at this
    exact h0 this.2.1
  unfold lex
  have hws : skipWs ⟨g ++ w ++ [0], ⟨0, 1, 1⟩⟩ = .ok ⟨w ++ [0], Pos.after ⟨0, 1, 1⟩ g⟩ := by
    rw [List.append_assoc]
    exact skipWs_eq hg hw
  have hl : 0 < w.length := List.length_pos_iff.2 hne
  simp only [hws, Res.ok_bind]
  rw [if_neg (by simp [Cur.left]; omega)]
  rw [lexes_loop h (g ++ w ++ [0]) fatal g [] ((g ++ w).length + 2) (by simp) hp (by simp; omega)]
  simp only [Res.ok_bind, List.nil_append]
  rw [if_neg h0]

/-- The specification gives a text at most one list of tokens. -/
theorem C27_unique {ms ms1 ms2 : Macros} {p : Pos} {w : Bytes} {ts1 ts2 : List Tok} (h1 : Lexes ms p w ts1 ms1) (h2 : Lexes ms p w ts2 ms2) :
    ts1 = ts2 ∧ ms1 = ms2 := by
  have e1 := lexes_loop h1 (List.replicate p.off 0 ++ (w ++ [0])) false _ [] w.length rfl (by simp) (Nat.le_refl _)
  have e2 := lexes_loop h2 (List.replicate p.off 0 ++ (w ++ [0])) false _ [] w.length rfl (by simp) (Nat.le_refl _)
  rw [e1] at e2
  simpa using e2

/-! ## An example: a directive, a macro, a comment, an operator, literals -/

/-- `#define N 4`, a comment, `int x = N / 'a';`. -/
def demo : Bytes := b!"#define N 4\n// c\nint x= N/'a';\n"

theorem isWord_demo : IsWord b!"N" ∧ IsWord b!"int" ∧ IsWord b!"x" :=
  ⟨⟨_, _, rfl, .inl (by decide), by decide⟩, ⟨_, _, rfl, .inl (by decide), by decide⟩, ⟨_, _, rfl, .inl (by decide), by decide⟩⟩

theorem demo_lexes : Lexes [] ⟨0, 1, 1⟩ demo
    [⟨0, 1, .Preprocess_Hash, 1, 1, 8⟩, ⟨1, 6, .Preprocess_Define, 1, 1, 0⟩, ⟨8, 1, .Identifier, 1, 9, 8⟩, ⟨9, 2, .Preprocess_Content, 1, 10, 8⟩,
      ⟨11, 1, .NewLine, 1, 12, 0⟩, ⟨12, 5, .Comment, 2, 1, 0⟩, ⟨17, 3, .Type_int, 3, 1, 0⟩, ⟨21, 1, .Identifier, 3, 4, 0⟩,
      ⟨22, 1, .Operator, 3, 6, 3⟩, ⟨24, 1, .Preprocess_Macro_Expr, 3, 7, 0⟩, ⟨25, 1, .Operator, 3, 9, 1⟩, ⟨26, 3, .Char, 3, 10, 2048⟩,
      ⟨29, 1, .Statement_End, 3, 13, 512⟩] [(Crc.crc32 b!"N", ⟨0, 0⟩)] := by
  have hm : lookupMacro [(Crc.crc32 b!"N", ⟨0, 0⟩)] b!"N" = some ⟨0, 0⟩ := by simp [lookupMacro]
  have hx : lookupMacro [(Crc.crc32 b!"N", ⟨0, 0⟩)] b!"x" = none := by decide +kernel
  refine .directive (x := b!"#define N 4") (nl := [10]) (tn := [⟨11, 1, .NewLine, 1, 12, 0⟩]) (ms1 := [(Crc.crc32 b!"N", ⟨0, 0⟩)])
    (td := [⟨0, 1, .Preprocess_Hash, 1, 1, 8⟩, ⟨1, 6, .Preprocess_Define, 1, 1, 0⟩, ⟨8, 1, .Identifier, 1, 9, 8⟩, ⟨9, 2, .Preprocess_Content, 1, 10, 8⟩])
    (Directive.define (g := []) (s := []) (k := b!"define") (s' := [32]) (n := b!"N") (h := b!"N") (c := b!" 4") (f := false)
      (ts := [⟨8, 1, .Identifier, 1, 9, 8⟩])
      ⟨by simp, fun _ => by rintro b ⟨⟩⟩ (by simp [Spaces]) ⟨by decide, by decide +kernel⟩ (by simp [Spaces]; decide) (by simp)
      (.object isWord_demo.1) (fun _ => by rintro b ⟨⟩; decide) (by unfold PlainLine; decide) (by rintro b ⟨⟩; decide)) .lf ?_
  refine .comment (g := []) (x := b!"// c\n") ⟨by simp, fun _ => by rintro b ⟨⟩⟩ (.lineLf (w := b!" c") (by decide)) ?_
  refine .token (g := []) (x := b!"int") (e := []) ⟨by simp, fun _ => by rintro b ⟨⟩⟩
    (.keyword isWord_demo.2.1 (by decide +kernel) (by decide) (by decide) (by decide) (by decide) (by rintro b ⟨⟩; decide)) ?_
  refine .token (g := [32]) (x := b!"x") (e := []) ⟨by decide, fun h => absurd h (by decide)⟩
    (.word isWord_demo.2.2 (by decide +kernel) hx (by rintro b ⟨⟩; decide)) ?_
  refine .token (g := []) (x := b!"=") (e := []) ⟨by simp, fun h => absurd h (by decide)⟩
    (.punct (f := b!"=") (by decide) (by rintro b ⟨⟩; decide)) ?_
  refine .token (g := [32]) (x := b!"N") (e := []) (ty := macroType ⟨0, 0⟩) (fl := macroUseFlags ⟨0, 0⟩) ⟨by decide, fun h => absurd h (by decide)⟩
    (.macroUse isWord_demo.1 (by decide +kernel) hm (by rintro b ⟨⟩; decide) (by unfold UsedAs; decide)
      (.inr (by rintro b ⟨⟩; decide)) (by decide)) ?_
  refine .token (g := []) (x := b!"/") (e := []) ⟨by simp, fun h => absurd h (by decide)⟩
    (.punct (f := b!"=/*") (by decide) (by rintro b ⟨⟩; decide)) ?_
  refine .token (g := []) (x := b!"'a'") (e := []) ⟨by simp, fun h => absurd h (by decide)⟩
    (.char (w := b!"a") (by decide) (by decide)) ?_
  refine .token (g := []) (x := b!";") (e := [10]) ⟨by simp, fun h => absurd h (by decide)⟩ (.semicolon (.lf (n := 0))) ?_
  exact .done ⟨by simp, fun _ => by rintro b ⟨⟩⟩

example : lex true [] demo = .ok (some
    ([⟨0, 1, .Preprocess_Hash, 1, 1, 8⟩, ⟨1, 6, .Preprocess_Define, 1, 1, 0⟩, ⟨8, 1, .Identifier, 1, 9, 8⟩, ⟨9, 2, .Preprocess_Content, 1, 10, 8⟩,
      ⟨11, 1, .NewLine, 1, 12, 0⟩, ⟨12, 5, .Comment, 2, 1, 0⟩, ⟨17, 3, .Type_int, 3, 1, 0⟩, ⟨21, 1, .Identifier, 3, 4, 0⟩,
      ⟨22, 1, .Operator, 3, 6, 3⟩, ⟨24, 1, .Preprocess_Macro_Expr, 3, 7, 0⟩, ⟨25, 1, .Operator, 3, 9, 1⟩, ⟨26, 3, .Char, 3, 10, 2048⟩,
      ⟨29, 1, .Statement_End, 3, 13, 512⟩], [(Crc.crc32 b!"N", ⟨0, 0⟩)])) :=
  C27_exact (g := []) true (by simp [Spaces]) demo_lexes (by rintro b ⟨⟩; decide) (by simp)

end Verif.Lex
