import Verif.Proof.LexExact2
/-! # The lexer does what `Lexes` says: comments, macros at the end of a line -/
namespace Verif.Lex

/-- What a turn must do to the text `x` before `r`. -/
def Turns (ms : Macros) (p : Pos) (x r : Bytes) (ts : List Tok) (ms1 : Macros) : Prop :=
  ∀ (mem : Bytes) (fatal : Bool) (toks : List Tok) (pre : Bytes), mem = pre ++ (x ++ r ++ [0]) → pre.length = p.off →
    turn mem fatal ⟨⟨x ++ r ++ [0], p⟩, toks, ms⟩ = .ok (some ⟨⟨r ++ [0], p.after x⟩, toks ++ ts, ms1⟩)

theorem slice_mid {pre x y : Bytes} {n : Nat} (h : n = pre.length) : slice (pre ++ (x ++ y)) n x.length = x := by
  subst h
  simp [slice]

theorem Takes.turns {ms : Macros} {p : Pos} {g x e r : Bytes} {ty : TokType} {fl : Nat} (hg : GapAt p g)
    (hx : ∃ b x', x = b :: x' ∧ charIsSpace b = false ∧ b ≠ 35) (h : Takes ms x e r ty fl) :
    Turns ms p (g ++ x ++ e) r [⟨p.off + g.length, x.length, ty, p.line, p.col, fl⟩] ms := by
  intro mem fatal toks pre hm hp
  obtain ⟨b, x', hb, h1, h2⟩ := hx
  have e1 : g ++ x ++ e ++ r ++ [0] = g ++ (x ++ e ++ r) ++ [0] := by simp
  rw [e1, turn_gap hg ⟨b, x' ++ e ++ r, by rw [hb]; simp, h1, h2⟩]
  rw [h mem fatal _ toks p (p.after g)]
  · rw [after_off, ← after_append]
    simp
  · have e2 : mem = (pre ++ g) ++ (x ++ (e ++ r ++ [0])) := by rw [hm]; simp
    rw [e2]
    exact slice_mid (by rw [after_off]; simp; omega)

theorem alpha_head {a : UInt8} (ha : charIsAlpha a = true ∨ a = 95) : charIsSpace a = false ∧ a ≠ 35 := by
  constructor
  · exact (word_not_special ha).1
  · rintro rfl
    rcases ha with h | h <;> exact absurd h (by decide)

theorem word_head {x : Bytes} (h : IsWord x) : ∃ b x', x = b :: x' ∧ charIsSpace b = false ∧ b ≠ 35 := by
  obtain ⟨a, v, rfl, ha, _⟩ := isWord_parts h
  exact ⟨a, v, rfl, alpha_head ha⟩

theorem digit_head {d : UInt8} (h : charIsDigit d = true) : charIsSpace d = false ∧ d ≠ 35 := by
  have hb : 48 ≤ d.toNat ∧ d.toNat ≤ 57 := by
    simp only [charIsDigit, Bool.and_eq_true, decide_eq_true_eq, UInt8.le_iff_toNat_le] at h
    exact h
  have hne : ∀ k : UInt8, k.toNat < 48 → d ≠ k := by
    rintro k hk rfl
    omega
  constructor
  · simp [charIsSpace, hne 32 (by decide), hne 9 (by decide), hne 10 (by decide), hne 13 (by decide), hne 12 (by decide), hne 11 (by decide)]
  · exact hne 35 (by decide)

theorem reads_head {ms : Macros} {x e r : Bytes} {ty : TokType} {fl : Nat} (h : Reads ms x e r ty fl) :
    ∃ b x', x = b :: x' ∧ charIsSpace b = false ∧ b ≠ 35 := by
  cases h with
  | word h => exact word_head h
  | keyword h => exact word_head h
  | externSpec h => exact word_head h
  | externLinkage h => exact word_head h
  | macroUse h => exact word_head h
  | macroMisused h => exact word_head h
  | punct h1 h2 =>
    have : ∀ y ∈ punctuation, (y.1.head?.any fun b => !charIsSpace b && b != 35) = true := by decide
    have := this _ h1
    cases x with
    | nil => simp at this
    | cons b x' => simp at this; exact ⟨b, x', rfl, this.1, this.2⟩
  | braceClose h => exact ⟨_, _, rfl, by decide, by decide⟩
  | semicolon h => exact ⟨_, _, rfl, by decide, by decide⟩
  | string h => exact ⟨_, _, rfl, by decide, by decide⟩
  | char h1 h2 => exact ⟨_, _, rfl, by decide, by decide⟩
  | charEscape h1 h2 => exact ⟨_, _, rfl, by decide, by decide⟩
  | integer h1 h2 h3 =>
    obtain ⟨d, x, rfl⟩ := List.exists_cons_of_ne_nil h1
    exact ⟨_, _, rfl, digit_head (h2 d (by simp))⟩
  | based h1 h2 h3 h4 => exact ⟨_, _, rfl, digit_head h1⟩
  | decimal h1 h2 h3 h4 =>
    obtain ⟨d, x, rfl⟩ := List.exists_cons_of_ne_nil h1
    exact ⟨_, _, rfl, digit_head (h2 d (by simp))⟩
  | suffixed h1 h2 h3 h4 =>
    obtain ⟨d, x, rfl⟩ := List.exists_cons_of_ne_nil h1
    exact ⟨_, _, rfl, digit_head (h2 d (by simp))⟩

theorem turns_token {ms : Macros} {p : Pos} {g x e r : Bytes} {ty : TokType} {fl : Nat} (hg : GapAt p g) (h : Reads ms x e r ty fl) :
    Turns ms p (g ++ x ++ e) r [⟨p.off + g.length, x.length, ty, p.line, p.col, fl⟩] ms :=
  (takes_reads h).turns hg (reads_head h)

theorem newlineAfter_eq {p : Pos} {nl r : Bytes} {tn toks : List Tok} (h : Break p nl tn r) :
    newlineAfter ⟨nl ++ r ++ [0], p⟩ toks = .ok (⟨r ++ [0], p.after nl⟩, toks ++ tn) := by
  cases h with
  | none h =>
    unfold newlineAfter eatIf
    cases r with
    | nil => simp [Cur.peek, Res.ok_bind, after_nil]
    | cons b r =>
      have := h b rfl
      simp at this
      simp [Cur.peek, this.1, this.2, Res.ok_bind, after_nil]
  | lf => rfl
  | crlf => rfl

/-! ## Comments -/

/-- What the switch must do to a comment. -/
def Comments (x r : Bytes) : Prop :=
  ∀ (q : Pos) (t : Tok), lexSlash ⟨x ++ r ++ [0], q⟩ t =
    .ok (.comment ⟨r ++ [0], q.after x⟩ { t with start := q.off, len := x.length, type := .Comment, flags := 0 })

theorem eatIf_no {k : UInt8} {r : Bytes} {q : Pos} (h : NotNext (fun b => b == k) r) (h0 : k ≠ 0) :
    eatIf k ⟨r ++ [0], q⟩ = .ok (⟨r ++ [0], q⟩, 0) := by
  unfold eatIf
  cases r with
  | nil => simp [Cur.peek, Res.ok_bind, h0.symm]
  | cons b r =>
    have := h b rfl
    simp at this
    simp [Cur.peek, this, Res.ok_bind]

theorem eatIf_yes {k : UInt8} {r : Bytes} {q : Pos} : eatIf k ⟨k :: r, q⟩ = .ok (⟨r, q.step k⟩, 1) := by
  simp [eatIf, Cur.peek, Cur.move, Res.ok_bind]

theorem comments_line {w e r : Bytes} (hw : ∀ b ∈ w, b ≠ 10 ∧ b ≠ 13) (he : e = [10] ∨ e = [13, 10] ∨ (e = [] ∧ r = [])) :
    Comments (b!"//" ++ w ++ e) r := by
  intro q t
  have e1 : b!"//" ++ w ++ e ++ r ++ [0] = 47 :: 47 :: (w ++ ((e ++ r) ++ [0])) := by simp
  rw [e1]
  unfold lexSlash
  have hrun : run (fun b => b != 10 && b != 13) ⟨w ++ ((e ++ r) ++ [0]), (q.step 47).step 47⟩ =
      .ok (⟨(e ++ r) ++ [0], ((q.step 47).step 47).after w⟩, w.length) :=
    run_after (fun x hx => by simpa using hw x hx) (by
      rcases he with rfl | rfl | ⟨rfl, rfl⟩
      · rintro b ⟨⟩; decide
      · rintro b ⟨⟩; decide
      · rintro b ⟨⟩)
  have hend : ∀ Q : Pos, ∃ c1 n1 n2, eatIf 13 ⟨e ++ r ++ [0], Q⟩ = .ok (c1, n1) ∧ eatIf 10 c1 = .ok (⟨r ++ [0], Q.after e⟩, n2) ∧ n1 + n2 = e.length := by
    intro Q
    rcases he with rfl | rfl | ⟨rfl, rfl⟩
    · exact ⟨⟨10 :: (r ++ [0]), Q⟩, 0, 1, rfl, rfl, rfl⟩
    · exact ⟨⟨10 :: (r ++ [0]), Q.step 13⟩, 1, 1, rfl, rfl, rfl⟩
    · exact ⟨⟨[0], Q⟩, 0, 0, rfl, rfl, rfl⟩
  obtain ⟨c1, n1, n2, h1, h2, h3⟩ := hend (((q.step 47).step 47).after w)
  simp only [move_cons, Res.ok_bind]
  rw [if_neg (by simp [Cur.left]; omega)]
  simp only [peek_cons, Res.ok_bind]
  rw [if_neg (by decide), if_pos trivial]
  simp only [hrun, h1, h2, Res.ok_bind]
  have e2 : (b!"//" ++ w ++ e).length = 2 + w.length + n1 + n2 := by simp; omega
  rw [e2, after_append, after_append]
  rfl

theorem commentLoop_eq : ∀ (w : Bytes) (r : Bytes) (q : Pos) (fuel : Nat), (¬ ∃ a b, w ++ b!"*" = a ++ 42 :: 47 :: b) → w.length < fuel →
    commentLoop fuel ⟨w ++ 42 :: 47 :: r, q⟩ = .ok (⟨42 :: 47 :: r, q.after w⟩, w.length)
  | [], r, q, fuel, _, hf => by
    unfold commentLoop
    simp [atEnd, Cur.peek, Cur.peek1, Res.ok_bind, after_nil]
  | b :: w, r, q, fuel, hw, hf => by
    have ih : ∀ q fuel, w.length < fuel → commentLoop fuel ⟨w ++ 42 :: 47 :: r, q⟩ = .ok (⟨42 :: 47 :: r, q.after w⟩, w.length) :=
      fun q fuel => commentLoop_eq w r q fuel (by
        rintro ⟨a, c, h⟩
        exact hw ⟨b :: a, c, by simp [← h]⟩)
    obtain ⟨c, z, hz⟩ : ∃ c z, w ++ 42 :: 47 :: r = c :: z := by cases w <;> exact ⟨_, _, rfl⟩
    have hend : ¬ (b = 42 ∧ c = 47) := by
      rintro ⟨rfl, rfl⟩
      cases w with
      | nil => simp at hz
      | cons x w =>
        simp at hz
        exact hw ⟨[], w ++ [42], by simp [hz.1]⟩
    cases fuel with
    | zero => simp at hf
    | succ fuel =>
      have ih := ih (q.step b) fuel (by simpa using hf)
      rw [List.cons_append]
      rw [hz] at ih ⊢
      unfold commentLoop
      simp only [atEnd, Cur.peek, Cur.peek1, Res.ok_bind, move_cons]
      rw [if_neg]
      · rw [ih]
        simp [Res.ok_bind, after_cons]
      · simp only [Bool.and_eq_true, beq_iff_eq, not_or]
        exact ⟨left_two _ _ _ _, hend⟩

theorem comments_block {w e r : Bytes} (hw : ¬ ∃ a b, w ++ b!"*" = a ++ 42 :: 47 :: b)
    (he : e = [10] ∨ (e = [] ∧ NotNext (fun b => b == 13 || b == 10) r)) : Comments (b!"/*" ++ w ++ (b!"*/" ++ e)) r := by
  intro q t
  have e1 : b!"/*" ++ w ++ (b!"*/" ++ e) ++ r ++ [0] = 47 :: 42 :: (w ++ 42 :: 47 :: (e ++ r ++ [0])) := by simp
  rw [e1]
  unfold lexSlash
  have hend : ∀ Q : Pos, ∃ c1 n1 n2, eatIf 13 ⟨e ++ r ++ [0], Q⟩ = .ok (c1, n1) ∧ eatIf 10 c1 = .ok (⟨r ++ [0], Q.after e⟩, n2) ∧ n1 + n2 = e.length := by
    intro Q
    rcases he with rfl | ⟨rfl, h⟩
    · exact ⟨⟨10 :: (r ++ [0]), Q⟩, 0, 1, rfl, rfl, rfl⟩
    · have h' : ∀ b, r.head? = some b → b ≠ 13 ∧ b ≠ 10 := fun b hb => by simpa using h b hb
      exact ⟨⟨r ++ [0], Q⟩, 0, 0, eatIf_no (fun b hb => by simp [(h' b hb).1]) (by decide),
        eatIf_no (fun b hb => by simp [(h' b hb).2]) (by decide), rfl⟩
  obtain ⟨c1, n1, n2, h1, h2, h3⟩ := hend (((((q.step 47).step 42).after w).step 42).step 47)
  simp only [move_cons, Res.ok_bind]
  rw [if_neg (by simp [Cur.left]; omega)]
  simp only [peek_cons, Res.ok_bind]
  rw [if_neg (by decide), if_neg (by decide), if_pos trivial]
  rw [commentLoop_eq w _ _ _ hw (by simp; omega)]
  simp only [move_cons, h1, h2, Res.ok_bind]
  have e2 : (b!"/*" ++ w ++ (b!"*/" ++ e)).length = 2 + w.length + 2 + n1 + n2 := by simp; omega
  rw [e2, after_append, after_append, after_append]
  rfl

theorem comments_of {x r : Bytes} (h : CommentText x r) : Comments x r := by
  cases h with
  | lineEof h => have := comments_line (e := []) (r := []) h (.inr (.inr ⟨rfl, rfl⟩)); simpa using this
  | lineLf h => exact comments_line h (.inl rfl)
  | lineCrlf h => exact comments_line h (.inr (.inl rfl))
  | block h1 h2 =>
    have := comments_block (e := []) h1 (.inr ⟨rfl, h2⟩)
    simp only [List.append_nil] at this
    exact this
  | blockLf h1 =>
    rename_i w
    have := comments_block (r := r) (e := [10]) h1 (.inl rfl)
    simpa using this

theorem comment_head {x r : Bytes} (h : CommentText x r) : ∃ x', x = 47 :: x' := by
  cases h <;> exact ⟨_, rfl⟩

theorem turns_comment {ms : Macros} {p : Pos} {g x r : Bytes} (hg : GapAt p g) (h : CommentText x r) :
    Turns ms p (g ++ x) r [⟨p.off + g.length, x.length, .Comment, p.line, p.col, 0⟩] ms := by
  intro mem fatal toks pre hm hp
  obtain ⟨x', hx⟩ := comment_head h
  have e1 : g ++ x ++ r ++ [0] = g ++ (x ++ r) ++ [0] := by simp
  rw [e1, turn_gap hg ⟨47, x' ++ r, by rw [hx]; simp, by decide, by decide⟩]
  unfold after
  have hp : Cur.peek ⟨x ++ r ++ [0], p.after g⟩ = .ok 47 := by rw [hx]; rfl
  rw [hp]
  have hs : lexSwitch fatal 47 ⟨x ++ r ++ [0], p.after g⟩ (blankTok p) = lexSlash ⟨x ++ r ++ [0], p.after g⟩ (blankTok p) := rfl
  simp only [Res.ok_bind, hs, comments_of h (p.after g) (blankTok p), after_off, after_append]
  rfl

/-! ## A macro at the end of a line -/

theorem turns_macroLine {ms : Macros} {p : Pos} {g x nl r : Bytes} {m : MacroInfo} {tn : List Tok} (hg : GapAt p g) (hx : IsWord x)
    (ht : strToTokType x = .Invalid) (hm : lookupMacro ms x = some m) (hf : m.flags.testBit 0 = false) (hty : m.type = 0 ∨ m.type = 1)
    (hb : Break (p.after (g ++ x)) nl tn r) (hn : nl ≠ []) :
    Turns ms p (g ++ x ++ nl) r (⟨p.off + g.length, x.length, macroType m, p.line, p.col, macroUseFlags m⟩ :: tn) ms := by
  intro mem fatal toks pre hmem hp
  obtain ⟨b, x', hbx, h1, h2⟩ := word_head hx
  have e1 : g ++ x ++ nl ++ r ++ [0] = g ++ (x ++ (nl ++ r)) ++ [0] := by simp
  rw [e1, turn_gap hg ⟨b, x' ++ (nl ++ r), by rw [hbx]; simp, h1, h2⟩]
  have hslice : slice mem (p.after g).off x.length = x := by
    have e2 : mem = (pre ++ g) ++ (x ++ (nl ++ r ++ [0])) := by rw [hmem]; simp
    rw [e2]
    exact slice_mid (by rw [after_off]; simp; omega)
  obtain ⟨c, z, hc, hc1⟩ : ∃ c z, nl = c :: z ∧ (c = 10 ∨ c = 13) := by
    cases hb with
    | none h => exact absurd rfl hn
    | lf => exact ⟨_, _, rfl, .inl rfl⟩
    | crlf => exact ⟨_, _, rfl, .inr rfl⟩
  have hnw : NotNext isWord (nl ++ r) := by
    rw [hc]
    rintro y ⟨⟩
    rcases hc1 with rfl | rfl <;> decide
  have h40 : decide ((nl ++ r).head? = some 40) = false := by
    rw [hc]
    rcases hc1 with rfl | rfl <;> simp
  obtain ⟨a, v, rfl, ha, hv⟩ := isWord_parts hx
  unfold after
  have hpk : Cur.peek ⟨a :: v ++ (nl ++ r) ++ [0], p.after g⟩ = .ok a := rfl
  rw [hpk]
  simp only [Res.ok_bind, (word_not_special ha).2.2.2.2]
  rw [lexWord_eq hv hnw]
  simp only [Res.ok_bind]
  unfold finishToken foundToken
  rw [if_neg (by simp [blankTok])]
  simp only [hslice]
  unfold foundWord
  rw [ht, if_neg (by decide), if_neg (by decide), if_neg (by decide)]
  have hop := open_paren (nl ++ r) ((p.after g).after (a :: v))
  rw [List.nil_append] at hop
  rw [hop, Res.ok_bind, hm, h40]
  simp only
  rw [if_pos hf]
  have h3 : macroTokType m.type = macroType m := by
    unfold macroTokType macroType
    rcases hty with h | h <;> simp [h]
  have h4 : macroFlags m false (wordFlags .Invalid 0) = macroUseFlags m := by
    unfold macroFlags macroUseFlags
    rw [hf, wordFlags_none]
    cases m.flags.testBit 3 <;> cases m.flags.testBit 5 <;> decide
  have h5 : macroType m = .Preprocess_Macro_Stmt ∨ macroType m = .Preprocess_Macro_Expr := by
    unfold macroType
    rcases hty with h | h <;> simp [h]
  simp only [Res.ok_bind, h3, h4, blankTok]
  rw [if_pos h5]
  rw [after_append] at hb
  rw [newlineAfter_eq hb]
  simp only [Res.ok_bind, after_append, after_cons, after_off, List.append_assoc, List.cons_append, List.nil_append]

end Verif.Lex
