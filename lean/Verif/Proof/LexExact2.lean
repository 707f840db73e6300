import Verif.Proof.LexExact
/-! # The lexer does what `Lexes` says: line ends, literals, comments -/
namespace Verif.Lex

theorem replicate_mem {n : Nat} {b x : UInt8} (h : x ∈ List.replicate n b) : (x == b) = true := by
  rw [List.eq_of_mem_replicate h]; simp

theorem endLine_eq {e r : Bytes} {q : Pos} (h : LineEnd e r) : endLine ⟨e ++ r ++ [0], q⟩ = .ok ⟨r ++ [0], q.after e⟩ := by
  unfold endLine
  cases h with
  | none h =>
    rename_i n
    rw [List.append_assoc, run_after (fun x hx => replicate_mem hx) (fun b hb => by
      have := h b hb
      simp at this
      simp [this])]
    simp only [Res.ok_bind]
    split
    · rfl
    · rw [peek_rest, Res.ok_bind]
      cases r with
      | nil => rfl
      | cons b r =>
        have := h b rfl
        simp at this
        simp [this]
  | lf =>
    rename_i n
    have e1 : List.replicate n 32 ++ [10] ++ r ++ [0] = List.replicate n 32 ++ ((10 :: r) ++ [0]) := by simp
    rw [e1, run_after (fun x hx => replicate_mem hx) (by rintro b ⟨⟩; decide)]
    simp only [Res.ok_bind]
    rw [List.cons_append, if_neg (left_cons _ _ _), peek_cons, Res.ok_bind, if_neg (by decide), if_pos rfl, move_cons, after_append]
    rfl
  | crlf =>
    rename_i n
    have e1 : List.replicate n 32 ++ [13, 10] ++ r ++ [0] = List.replicate n 32 ++ ((13 :: 10 :: r) ++ [0]) := by simp
    rw [e1, run_after (fun x hx => replicate_mem hx) (by rintro b ⟨⟩; decide)]
    simp only [Res.ok_bind]
    rw [List.cons_append, if_neg (left_cons _ _ _), peek_cons, Res.ok_bind, if_pos rfl, move_cons, after_append]
    rfl

theorem sw_end {b : UInt8} {e r : Bytes} {ty : TokType} (hs : ∀ fatal c t, lexSwitch fatal b c t = lexEnd c t ty) (h : LineEnd e r) :
    Switches b [b] e r ty 512 := by
  intro fatal p q
  rw [hs]
  unfold lexEnd
  have e1 : [b] ++ e ++ r ++ [0] = b :: ((e ++ r) ++ [0]) := by simp
  rw [e1]
  simp only [moveIfLeft_cons, Res.ok_bind]
  rw [endLine_eq h]
  simp only [Res.ok_bind, List.cons_append, List.nil_append, after_cons]
  rfl

/-! ## Strings and characters -/

theorem stringLoop_eq {w r : Bytes} (h : StrBody w) : ∀ (fuel : Nat) (q : Pos), w.length < fuel →
    stringLoop fuel ⟨w ++ 34 :: (r ++ [0]), q⟩ = .ok (⟨r ++ [0], q.after (w ++ [34])⟩, w.length) := by
  induction h with
  | nil =>
    intro fuel q hf
    cases fuel with
    | zero => simp at hf
    | succ fuel =>
      unfold stringLoop
      simp only [List.nil_append]
      rw [if_neg (left_cons _ _ _), peek_cons, Res.ok_bind, if_pos rfl]
      rfl
  | @plain b w h1 h2 _ ih =>
    intro fuel q hf
    cases fuel with
    | zero => simp at hf
    | succ fuel =>
      unfold stringLoop
      have hl : ¬ Cur.left ⟨b :: w ++ 34 :: (r ++ [0]), q⟩ = 0 := by simp [Cur.left]; omega
      rw [if_neg hl]
      simp only [List.cons_append, peek_cons, Res.ok_bind]
      rw [if_neg h1, if_neg h2]
      simp only [move_cons, Res.ok_bind]
      rw [ih fuel _ (by simp at hf; omega)]
      simp [Res.ok_bind, after_cons, Nat.add_comm]
  | @escape b w _ ih =>
    intro fuel q hf
    cases fuel with
    | zero => simp at hf
    | succ fuel =>
      unfold stringLoop
      have hl : ¬ Cur.left ⟨92 :: b :: w ++ 34 :: (r ++ [0]), q⟩ = 0 := by simp [Cur.left]; omega
      have hl2 : ¬ Cur.left ⟨b :: (w ++ 34 :: (r ++ [0])), q.step 92⟩ = 0 := by simp [Cur.left]; omega
      rw [if_neg hl]
      simp only [List.cons_append, peek_cons, Res.ok_bind]
      rw [if_neg (by decide), if_pos trivial]
      simp only [move_cons, Res.ok_bind]
      rw [if_neg hl2]
      rw [ih fuel _ (by simp at hf; omega)]
      simp [Res.ok_bind, after_cons]
      omega

theorem sw_string {w r : Bytes} (h : StrBody w) : Switches 34 (34 :: w) [34] r .String 2048 := by
  intro fatal p q
  have e1 : 34 :: w ++ [34] ++ r ++ [0] = 34 :: (w ++ 34 :: (r ++ [0])) := by simp
  rw [e1]
  show lexString ⟨34 :: (w ++ 34 :: (r ++ [0])), q⟩ (blankTok p) = _
  unfold lexString
  simp only [move_cons, Res.ok_bind]
  rw [stringLoop_eq h _ _ (by simp; omega)]
  simp only [Res.ok_bind, flags_literal, List.cons_append, after_cons, List.length_cons, Nat.add_comm]
  rfl

theorem run_to_quote {w r : Bytes} {q : Pos} (h : ∀ b ∈ w, b ≠ 39) :
    run (fun b => b != 39) ⟨w ++ 39 :: (r ++ [0]), q⟩ = .ok (⟨39 :: (r ++ [0]), q.after w⟩, w.length) :=
  run_after (r := 39 :: r) (fun x hx => by simpa using h x hx) (by rintro b ⟨⟩; decide)

theorem sw_char {w r : Bytes} (h : ∀ b ∈ w, b ≠ 39) (h2 : w.head? ≠ some 92) : Switches 39 (39 :: w ++ [39]) [] r .Char 2048 := by
  intro fatal p q
  have e1 : 39 :: w ++ [39] ++ [] ++ r ++ [0] = 39 :: (w ++ 39 :: (r ++ [0])) := by simp
  rw [e1]
  show lexChar ⟨39 :: (w ++ 39 :: (r ++ [0])), q⟩ (blankTok p) = _
  unfold lexChar
  simp only [move_cons, Res.ok_bind]
  have hl : ¬ Cur.left ⟨w ++ 39 :: (r ++ [0]), q.step 39⟩ = 0 := by simp [Cur.left]; omega
  have hp : ∃ b, Cur.peek ⟨w ++ 39 :: (r ++ [0]), q.step 39⟩ = .ok b ∧ b ≠ 92 := by
    cases w with
    | nil => exact ⟨39, rfl, by decide⟩
    | cons b w => exact ⟨b, rfl, by rintro rfl; exact h2 rfl⟩
  obtain ⟨b, hp, hb⟩ := hp
  rw [if_neg hl, hp, Res.ok_bind, if_neg hb, Res.ok_bind]
  simp only [run_to_quote h, Res.ok_bind]
  rw [if_neg (left_cons _ _ _)]
  simp only [move_cons, Res.ok_bind, List.append_nil, List.cons_append, after_cons, after_append, List.length_cons, List.length_append,
    List.length_nil, Nat.add_comm, after_nil]
  rfl

theorem sw_charEscape {u w r : Bytes} (hq : u = [39] ∨ (u = [] ∧ w ≠ [])) (h : ∀ b ∈ w, b ≠ 39) :
    Switches 39 (39 :: 92 :: (u ++ w ++ [39])) [] r .Char 2048 := by
  intro fatal p q
  have e1 : 39 :: 92 :: (u ++ w ++ [39]) ++ [] ++ r ++ [0] = 39 :: 92 :: (u ++ (w ++ 39 :: (r ++ [0]))) := by simp
  rw [e1]
  show lexChar ⟨39 :: 92 :: (u ++ (w ++ 39 :: (r ++ [0]))), q⟩ (blankTok p) = _
  unfold lexChar
  simp only [move_cons, Res.ok_bind]
  have hl : ¬ Cur.left ⟨92 :: (u ++ (w ++ 39 :: (r ++ [0]))), q.step 39⟩ = 0 := by simp [Cur.left]; omega
  rw [if_neg hl, peek_cons, Res.ok_bind, if_pos rfl]
  have he : eatIf 39 ⟨u ++ (w ++ 39 :: (r ++ [0])), (q.step 39).step 92⟩ = .ok (⟨w ++ 39 :: (r ++ [0]), ((q.step 39).step 92).after u⟩, u.length) := by
    rcases hq with rfl | ⟨rfl, hw⟩
    · rfl
    · obtain ⟨b, w', rfl⟩ := List.exists_cons_of_ne_nil hw
      have := h b (by simp)
      simp [eatIf, Cur.peek, Res.ok_bind, this, after_nil]
  simp only [move_cons, Res.ok_bind, he, run_to_quote h]
  rw [if_neg (left_cons _ _ _)]
  simp only [move_cons, Res.ok_bind, List.append_nil, List.cons_append, after_cons, after_append, List.length_cons, List.length_append,
    List.length_nil, after_nil]
  have : 2 + u.length + w.length + 1 = u.length + w.length + (0 + 1) + 1 + 1 := by omega
  rw [this]
  rfl

/-! ## Numbers -/

theorem digit_switch {d : UInt8} (h : charIsDigit d = true) (fatal : Bool) (c : Cur) (t : Tok) : lexSwitch fatal d c t = lexNumber c t := by
  have hb : 48 ≤ d.toNat ∧ d.toNat ≤ 57 := by
    simp only [charIsDigit, Bool.and_eq_true, decide_eq_true_eq, UInt8.le_iff_toNat_le] at h
    exact h
  have hne : ∀ k : UInt8, (k.toNat < 48 ∨ 57 < k.toNat) → d ≠ k := by
    rintro k hk rfl
    omega
  have ha : ¬ (charIsAlpha d = true ∨ d = 95) := by
    simp only [charIsAlpha, Bool.or_eq_true, Bool.and_eq_true, decide_eq_true_eq, UInt8.le_iff_toNat_le]
    rintro ((⟨h1, _⟩ | ⟨h1, _⟩) | h1)
    · simp at h1; omega
    · simp at h1; omega
    · exact hne 95 (by decide) h1
  unfold lexSwitch
  rw [if_neg (hne _ (by decide)), if_neg (hne _ (by decide)), if_neg (hne _ (by decide)), if_neg (hne _ (by decide)),
    if_neg (hne _ (by decide)), if_neg (hne _ (by decide)), if_neg (hne _ (by decide)), if_neg (hne _ (by decide)),
    if_neg (hne _ (by decide)), if_neg (hne _ (by decide)), if_neg (hne _ (by decide)), if_neg (hne _ (by decide)),
    if_neg (hne _ (by decide)), if_neg (hne _ (by decide)), if_neg (hne _ (by decide)), if_neg (hne _ (by decide)),
    if_neg, if_neg (hne _ (by decide)), if_neg (hne _ (by decide)), if_neg ha, if_pos h]
  simp [hne 43 (by decide), hne 37 (by decide), hne 94 (by decide), hne 126 (by decide), hne 33 (by decide), hne 60 (by decide), hne 62 (by decide), hne 124 (by decide)]

theorem opt_none {P : UInt8 → Bool} {r : Bytes} {q : Pos} (h : NotNext P r) : opt P ⟨r ++ [0], q⟩ = .ok (⟨r ++ [0], q⟩, none) := by
  unfold opt
  split
  · rfl
  · cases r with
    | nil => simp [Cur.left] at *
    | cons b r =>
      simp [Cur.peek, Res.ok_bind, h b rfl]

theorem opt_some {P : UInt8 → Bool} {b : UInt8} {r : Bytes} {q : Pos} (h : P b = true) :
    opt P ⟨b :: (r ++ [0]), q⟩ = .ok (⟨r ++ [0], q.step b⟩, some b) := by
  unfold opt
  rw [if_neg (left_cons _ _ _)]
  simp [Cur.peek, Res.ok_bind, h, move_cons]

theorem digit_not_prefix {b : UInt8} (h : charIsDigit b = true) : isBasePrefix b = false := by
  have hb : 48 ≤ b.toNat ∧ b.toNat ≤ 57 := by
    simp only [charIsDigit, Bool.and_eq_true, decide_eq_true_eq, UInt8.le_iff_toNat_le] at h
    exact h
  have hne : ∀ k : UInt8, (k.toNat < 48 ∨ 57 < k.toNat) → b ≠ k := by
    rintro k hk rfl
    omega
  simp [isBasePrefix, hne 120 (by decide), hne 88 (by decide), hne 98 (by decide), hne 66 (by decide), hne 111 (by decide), hne 79 (by decide)]

theorem isBasePrefix_eq (b : UInt8) : isBasePrefix b = b!"xXbBoO".contains b := by
  rw [Bool.eq_iff_iff]
  simp [isBasePrefix, or_assoc]

theorem isSuffix_eq (b : UInt8) : isSuffix b = b!"lLuUfFiIzZ".contains b := by
  rw [Bool.eq_iff_iff]
  simp [isSuffix, or_assoc]

/-- The digits of a number. -/
theorem digits {d : UInt8} {x r : Bytes} {q : Pos} (hx : ∀ b ∈ x, charIsDigit b = true) (hr : NotNext charIsDigit r)
    (hp : x = [] → NotNext isBasePrefix r) :
    opt isBasePrefix ⟨x ++ (r ++ [0]), q.step d⟩ = .ok (⟨x ++ (r ++ [0]), q.step d⟩, none) ∧
    run charIsDigit ⟨x ++ (r ++ [0]), q.step d⟩ = .ok (⟨r ++ [0], q.after (d :: x)⟩, x.length) := by
  refine ⟨?_, run_after hx hr⟩
  rw [← List.append_assoc]
  apply opt_none
  cases x with
  | nil => exact hp rfl
  | cons b x => rintro c ⟨⟩; exact digit_not_prefix (hx b (by simp))

theorem sw_integer {d : UInt8} {x r : Bytes} (hx : ∀ b ∈ d :: x, charIsDigit b = true)
    (hr : NotNext (fun b => charIsDigit b || b == 46 || ((d :: x).length == 1 && b!"xXbBoO".contains b)) r) :
    Switches d (d :: x) [] r .Number 2048 := by
  intro fatal p q
  rw [digit_switch (hx d (by simp))]
  have e1 : d :: x ++ [] ++ r ++ [0] = d :: (x ++ (r ++ [0])) := by simp
  rw [e1]
  unfold lexNumber
  obtain ⟨h1, h2⟩ := digits (d := d) (x := x) (r := r) (q := q) (fun b hb => hx b (by simp [hb])) (fun b hb => by
    have := hr b hb
    simp only [Bool.or_eq_false_iff] at this
    exact this.1.1) (by
      rintro rfl b hb
      have := hr b hb
      simp only [Bool.or_eq_false_iff] at this
      rw [isBasePrefix_eq]
      simpa using this.2)
  have h3 : opt (fun b => b == 46) ⟨r ++ [0], q.after (d :: x)⟩ = .ok (⟨r ++ [0], q.after (d :: x)⟩, none) := opt_none (fun b hb => by
    have := hr b hb
    simp only [Bool.or_eq_false_iff] at this
    exact this.1.2)
  simp only [move_cons, Res.ok_bind, h1, h2, h3, List.append_nil, List.length_cons, Nat.add_comm]
  rfl

theorem sw_based {d k : UInt8} {w r : Bytes} (hd : charIsDigit d = true) (hb : k ∈ b!"xXbBoO") (hw : ∀ b ∈ w, charIsHexDigit b = true)
    (hr : NotNext charIsHexDigit r) : Switches d (d :: k :: w) [] r .Number 2048 := by
  intro fatal p q
  rw [digit_switch hd]
  have e1 : d :: k :: w ++ [] ++ r ++ [0] = d :: k :: ((w ++ r) ++ [0]) := by simp
  rw [e1]
  unfold lexNumber
  have h1 : opt isBasePrefix ⟨k :: ((w ++ r) ++ [0]), q.step d⟩ = .ok (⟨w ++ r ++ [0], (q.step d).step k⟩, some k) :=
    opt_some (by rw [isBasePrefix_eq]; simpa using hb)
  have h2 : run charIsHexDigit ⟨w ++ r ++ [0], (q.step d).step k⟩ = .ok (⟨r ++ [0], ((q.step d).step k).after w⟩, w.length) := by
    rw [List.append_assoc]
    exact run_after hw hr
  have e2 : (d :: k :: w).length = 2 + w.length := by simp; omega
  simp only [move_cons, Res.ok_bind, h1, h2, List.append_nil, e2, after_cons]
  rfl

theorem sw_decimal {d : UInt8} {x y r : Bytes} (hx : ∀ b ∈ d :: x, charIsDigit b = true) (hy : ∀ b ∈ y, charIsDigit b = true)
    (hr : NotNext (fun b => charIsDigit b || b!"lLuUfFiIzZ".contains b) r) :
    Switches d (d :: x ++ 46 :: y) [] r .Number 2048 := by
  intro fatal p q
  rw [digit_switch (hx d (by simp))]
  have e1 : d :: x ++ 46 :: y ++ [] ++ r ++ [0] = d :: (x ++ ((46 :: (y ++ r)) ++ [0])) := by simp
  rw [e1]
  unfold lexNumber
  obtain ⟨h1, h2⟩ := digits (d := d) (x := x) (r := 46 :: (y ++ r)) (q := q) (fun b hb => hx b (by simp [hb]))
    (by rintro b ⟨⟩; decide) (by rintro _ b ⟨⟩; decide)
  have h3 : opt (fun b => b == 46) ⟨46 :: (y ++ r) ++ [0], q.after (d :: x)⟩ =
      .ok (⟨(y ++ r) ++ [0], (q.after (d :: x)).step 46⟩, some 46) := opt_some rfl
  have h4 : run charIsDigit ⟨(y ++ r) ++ [0], (q.after (d :: x)).step 46⟩ = .ok (⟨r ++ [0], ((q.after (d :: x)).step 46).after y⟩, y.length) := by
    rw [List.append_assoc]
    exact run_after hy (fun b hb => by
      have := hr b hb
      simp only [Bool.or_eq_false_iff] at this
      exact this.1)
  have h5 : opt isSuffix ⟨r ++ [0], ((q.after (d :: x)).step 46).after y⟩ = .ok (⟨r ++ [0], ((q.after (d :: x)).step 46).after y⟩, none) :=
    opt_none (fun b hb => by
      have := hr b hb
      simp only [Bool.or_eq_false_iff] at this
      rw [isSuffix_eq]
      exact this.2)
  simp only [move_cons, Res.ok_bind, h1, h2, h3, h4, h5, List.append_nil]
  have e2 : (d :: x ++ 46 :: y).length = 1 + x.length + 1 + y.length := by simp; omega
  rw [e2, after_append, after_cons]
  rfl

theorem sw_suffixed {d s : UInt8} {x y r : Bytes} (hx : ∀ b ∈ d :: x, charIsDigit b = true) (hy : ∀ b ∈ y, charIsDigit b = true)
    (hs : s ∈ b!"uUfFiIzZ") : Switches d (d :: x ++ 46 :: y ++ [s]) [] r .Number 2048 := by
  intro fatal p q
  rw [digit_switch (hx d (by simp))]
  have e1 : d :: x ++ 46 :: y ++ [s] ++ [] ++ r ++ [0] = d :: (x ++ ((46 :: (y ++ s :: r)) ++ [0])) := by simp
  rw [e1]
  unfold lexNumber
  obtain ⟨h1, h2⟩ := digits (d := d) (x := x) (r := 46 :: (y ++ s :: r)) (q := q) (fun b hb => hx b (by simp [hb]))
    (by rintro b ⟨⟩; decide) (by rintro _ b ⟨⟩; decide)
  have hsd : charIsDigit s = false ∧ isSuffix s = true ∧ isL s = false := by
    have : ∀ s ∈ b!"uUfFiIzZ", charIsDigit s = false ∧ isSuffix s = true ∧ isL s = false := by decide
    exact this s hs
  have h3 : opt (fun b => b == 46) ⟨46 :: (y ++ s :: r) ++ [0], q.after (d :: x)⟩ =
      .ok (⟨(y ++ s :: r) ++ [0], (q.after (d :: x)).step 46⟩, some 46) := opt_some rfl
  have h4 : run charIsDigit ⟨(y ++ s :: r) ++ [0], (q.after (d :: x)).step 46⟩ =
      .ok (⟨s :: (r ++ [0]), ((q.after (d :: x)).step 46).after y⟩, y.length) := by
    rw [List.append_assoc]
    exact run_after (r := s :: r) hy (by rintro b ⟨⟩; exact hsd.1)
  have h5 : opt isSuffix ⟨s :: (r ++ [0]), ((q.after (d :: x)).step 46).after y⟩ =
      .ok (⟨r ++ [0], (((q.after (d :: x)).step 46).after y).step s⟩, some s) := opt_some hsd.2.1
  have h6 : ∀ c : Cur, ∀ b r', c.rest = b :: r' → opt (fun b => isL s && isL b) c = .ok (c, none) := by
    intro c b r' hc
    unfold opt
    split
    · rfl
    · simp [Cur.peek, hc, hsd.2.2, Res.ok_bind]
  obtain ⟨b, r', hbr⟩ := rest_cons r
  have h7 := h6 ⟨r ++ [0], (((q.after (d :: x)).step 46).after y).step s⟩ b r' hbr
  simp only [move_cons, Res.ok_bind, h1, h2, h3, h4, h5, h7, List.append_nil]
  have e2 : (d :: x ++ 46 :: y ++ [s]).length = 1 + x.length + 1 + y.length + 1 := by simp; omega
  rw [e2, after_append, after_append, after_cons]
  rfl

/-! ## All tokens -/

theorem takes_reads {ms : Macros} {x e r : Bytes} {ty : TokType} {fl : Nat} (h : Reads ms x e r ty fl) : Takes ms x e r ty fl := by
  cases h with
  | word h1 h2 h3 h4 => exact takes_ident h1 h2 h4 (.inl h3)
  | keyword h1 h2 h3 h4 h5 h6 h7 => exact takes_keyword h1 h2 h3 h4 ⟨h5, h6⟩ h7
  | externSpec h1 h2 h3 h4 h5 =>
    refine (takes_extern h1 h2 h3 h4 (fun b hb => ?_)).1 ?_
    · have := h5 b hb
      simp only [Bool.or_eq_false_iff] at this
      exact this.1
    · intro hb
      have := h5 34 hb
      simp at this
  | externLinkage h1 h2 h3 h4 h5 =>
    refine (takes_extern h1 h2 h3 h4 (fun b hb => ?_)).2 h5
    rw [h5] at hb
    cases hb
    decide
  | macroUse h1 h2 h3 h4 h5 h6 h7 => exact takes_macro h1 h2 h4 h3 h5 h6 h7
  | macroMisused h1 h2 h3 h4 h5 => exact takes_ident h1 h2 h4 (.inr ⟨_, h3, h5⟩)
  | punct h1 h2 => exact takes_punct h1 h2
  | braceClose h => exact .of_switches rfl (by decide) (sw_end (fun _ _ _ => rfl) h)
  | semicolon h => exact .of_switches rfl (by decide) (sw_end (fun _ _ _ => rfl) h)
  | string h => exact .of_switches rfl (by decide) (sw_string h)
  | char h1 h2 => exact .of_switches rfl (by decide) (sw_char h1 h2)
  | charEscape h1 h2 => exact .of_switches rfl (by decide) (sw_charEscape h1 h2)
  | integer h1 h2 h3 =>
    obtain ⟨d, x, rfl⟩ := List.exists_cons_of_ne_nil h1
    exact .of_switches rfl (by decide) (sw_integer h2 h3)
  | based h1 h2 h3 h4 => exact .of_switches rfl (by decide) (sw_based h1 h2 h3 h4)
  | decimal h1 h2 h3 h4 =>
    obtain ⟨d, x, rfl⟩ := List.exists_cons_of_ne_nil h1
    exact .of_switches rfl (by decide) (sw_decimal h2 h3 h4)
  | suffixed h1 h2 h3 h4 =>
    obtain ⟨d, x, rfl⟩ := List.exists_cons_of_ne_nil h1
    exact .of_switches rfl (by decide) (sw_suffixed h2 h3 h4)

end Verif.Lex
