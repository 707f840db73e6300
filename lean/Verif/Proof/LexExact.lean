import Verif.Props.LexWords
import Verif.Props.LexExactSpec
/-! # The lexer does what `Lexes` says: single tokens -/
namespace Verif.Lex

theorem after_nil (p : Pos) : p.after [] = p := rfl
theorem after_cons (p : Pos) (b : UInt8) (w : Bytes) : p.after (b :: w) = (p.step b).after w := rfl
theorem after_append (p : Pos) (a b : Bytes) : p.after (a ++ b) = (p.after a).after b := by simp [Pos.after]

theorem step_off (p : Pos) (b : UInt8) : (p.step b).off = p.off + 1 := by unfold Pos.step; split <;> rfl

theorem after_off (p : Pos) (w : Bytes) : (p.after w).off = p.off + w.length := by
  induction w generalizing p with
  | nil => rfl
  | cons b w ih => rw [after_cons, ih, step_off]; simp; omega

/-- A run over `v` ends there. -/
def Stops (P : UInt8 → Bool) (rest : Bytes) : Prop := ∃ b r, rest = b :: r ∧ (r = [] ∨ P b = false)

theorem stops_of {P : UInt8 → Bool} {r : Bytes} (h : NotNext P r) : Stops P (r ++ [0]) := by
  cases r with
  | nil => exact ⟨0, [], rfl, .inl rfl⟩
  | cons b r => exact ⟨b, r ++ [0], rfl, .inr (h b rfl)⟩

theorem runL_after {P : UInt8 → Bool} : ∀ (v rest : Bytes) (p : Pos), (∀ x ∈ v, P x = true) → Stops P rest →
    runL P (v ++ rest) p = .ok (⟨rest, p.after v⟩, v.length)
  | [], rest, p, _, ⟨b, r, h1, h2⟩ => by
    subst h1
    cases r with
    | nil => rfl
    | cons b2 r =>
      have : P b = false := h2.resolve_left (by simp)
      simp [runL, this, after_nil]
  | x :: v, rest, p, hv, hs => by
    have ih := runL_after v rest (p.step x) (fun y hy => hv y (by simp [hy])) hs
    obtain ⟨b, r, h1, h2⟩ := hs
    obtain ⟨y, z, hyz⟩ : ∃ y z, v ++ rest = y :: z := by rw [h1]; cases v <;> exact ⟨_, _, rfl⟩
    rw [List.cons_append]
    rw [hyz] at ih ⊢
    rw [runL, if_pos (hv x (by simp)), ih]
    simp [after_cons, Res.ok_bind]

theorem run_after {P : UInt8 → Bool} {v r : Bytes} {p : Pos} (hv : ∀ x ∈ v, P x = true) (hr : NotNext P r) :
    run P ⟨v ++ (r ++ [0]), p⟩ = .ok (⟨r ++ [0], p.after v⟩, v.length) := runL_after v _ p hv (stops_of hr)

theorem move_cons (b : UInt8) (r : Bytes) (p : Pos) : Cur.move ⟨b :: r, p⟩ = .ok ⟨r, p.step b⟩ := rfl
theorem peek_cons (b : UInt8) (r : Bytes) (p : Pos) : Cur.peek ⟨b :: r, p⟩ = .ok b := rfl

theorem left_cons (b : UInt8) (r : Bytes) (p : Pos) : ¬ Cur.left ⟨b :: (r ++ [0]), p⟩ = 0 := by simp [Cur.left]; omega
theorem left_nil (p : Pos) : Cur.left ⟨[0], p⟩ = 0 := rfl

theorem moveIfLeft_cons (b : UInt8) (r : Bytes) (p : Pos) : moveIfLeft ⟨b :: (r ++ [0]), p⟩ = .ok ⟨r ++ [0], p.step b⟩ := by
  unfold moveIfLeft
  rw [if_neg (left_cons b r p)]
  rfl

/-- What the scanner sees behind the text: the next byte, or the terminator. -/
theorem peek_rest (r : Bytes) (p : Pos) : Cur.peek ⟨r ++ [0], p⟩ = .ok (r.head?.getD 0) := by
  cases r <;> rfl

/-- What one turn does behind the white space: the switch, and `FoundToken`. -/
def after (mem : Bytes) (fatal : Bool) (s : State) (c : Cur) (t : Tok) : Res (Option State) :=
  c.peek.bind fun b => (lexSwitch fatal b c t).bind fun f =>
    match f with
    | .comment c t => .ok (some { s with cur := c, toks := s.toks ++ [t] })
    | .token c t => (finishToken mem s c t).bind fun s => .ok (some s)

/-- The token a turn starts with. -/
def blankTok (p : Pos) : Tok := ⟨p.off, 0, .Invalid, p.line, p.col, 0⟩

theorem turn_gap {mem : Bytes} {fatal : Bool} {g w : Bytes} {p : Pos} {toks : List Tok} {ms : Macros} (hg : GapAt p g)
    (hw : ∃ b w', w = b :: w' ∧ charIsSpace b = false ∧ b ≠ 35) :
    turn mem fatal ⟨⟨g ++ w ++ [0], p⟩, toks, ms⟩ = after mem fatal ⟨⟨g ++ w ++ [0], p⟩, toks, ms⟩ ⟨w ++ [0], p.after g⟩ (blankTok p) := by
  obtain ⟨b, w', rfl, hb, h35⟩ := hw
  unfold turn
  have hfc : firstColumn ⟨g ++ b :: w' ++ [0], p⟩ = .ok (⟨g ++ b :: w' ++ [0], p⟩, none) := by
    unfold firstColumn
    split
    · rename_i hc
      obtain ⟨y, z, hyz, h1, h2⟩ : ∃ y z, g ++ b :: w' ++ [0] = y :: z ∧ y ≠ 13 ∧ y ≠ 10 := by
        cases g with
        | nil =>
          refine ⟨_, _, rfl, ?_, ?_⟩ <;> rintro rfl <;> exact absurd hb (by decide)
        | cons y g =>
          have h := hg.2 hc y rfl
          simp at h
          exact ⟨_, _, rfl, h.1, h.2⟩
      rw [hyz]
      simp [eatIf, Cur.peek, h1, h2, Res.ok_bind]
    · rfl
  have hws : skipWs ⟨g ++ b :: w' ++ [0], p⟩ = .ok ⟨b :: w' ++ [0], p.after g⟩ := by
    unfold skipWs
    have h := run_after (P := charIsSpace) (v := g) (r := b :: w') (p := p) hg.1 (by rintro x ⟨⟩; exact hb)
    rw [List.append_assoc, h]
    rfl
  simp only [hfc, hws, Res.ok_bind]
  rw [if_neg (by simp [Cur.left])]
  simp only [List.cons_append, peek_cons, Res.ok_bind, after]
  rw [if_neg h35]
  rfl

/-- What a turn must do to a token `x` with its swallowed bytes `e` before `r`. -/
def Takes (ms : Macros) (x e r : Bytes) (ty : TokType) (fl : Nat) : Prop :=
  ∀ (mem : Bytes) (fatal : Bool) (c0 : Cur) (toks : List Tok) (p q : Pos), slice mem q.off x.length = x →
    after mem fatal ⟨c0, toks, ms⟩ ⟨x ++ e ++ r ++ [0], q⟩ (blankTok p) =
      .ok (some ⟨⟨r ++ [0], q.after (x ++ e)⟩, toks ++ [⟨q.off, x.length, ty, p.line, p.col, fl⟩], ms⟩)

/-- The part of the switch. -/
theorem Takes.of_switch {ms : Macros} {x e r : Bytes} {ty : TokType} {fl : Nat} {b : UInt8} {x' : Bytes} (hx : x = b :: x')
    (hty : ty ≠ .Invalid) (h1 : ty ≠ .Preprocess_Macro_Stmt) (h2 : ty ≠ .Preprocess_Macro_Expr)
    (h : ∀ (fatal : Bool) (p q : Pos), lexSwitch fatal b ⟨x ++ e ++ r ++ [0], q⟩ (blankTok p) =
      .ok (.token ⟨r ++ [0], q.after (x ++ e)⟩ ⟨q.off, x.length, ty, p.line, p.col, fl⟩)) : Takes ms x e r ty fl := by
  intro mem fatal c0 toks p q hs
  unfold after
  have hp : Cur.peek ⟨x ++ e ++ r ++ [0], q⟩ = .ok b := by rw [hx]; rfl
  rw [hp]
  simp only [Res.ok_bind, h]
  unfold finishToken foundToken
  rw [if_pos hty]
  simp only [Res.ok_bind]
  rw [if_neg (by simp [h1, h2])]
  rfl

theorem isWord_parts {x : Bytes} (h : IsWord x) : ∃ a v, x = a :: v ∧ (charIsAlpha a = true ∨ a = 95) ∧ ∀ b ∈ v, isWord b = true := by
  obtain ⟨a, v, h1, h2, h3⟩ := h
  exact ⟨a, v, h1, h2, fun b hb => (isWord_ne (h3 b hb)).1⟩

theorem lexWord_eq {a : UInt8} {v r : Bytes} {q : Pos} (hv : ∀ b ∈ v, isWord b = true) (hr : NotNext isWord r) (t : Tok) :
    lexWord ⟨a :: v ++ r ++ [0], q⟩ t = .ok (.token ⟨r ++ [0], q.after (a :: v)⟩ { t with start := q.off, len := (a :: v).length }) := by
  unfold lexWord
  simp only [List.cons_append, move_cons, Res.ok_bind]
  rw [List.append_assoc, run_after hv hr]
  simp only [Res.ok_bind, after_cons, List.length_cons, Nat.add_comm]

/-- The part of a word. -/
theorem Takes.of_word {ms : Macros} {x e r : Bytes} {ty : TokType} {fl : Nat} (hx : IsWord x) (hr : NotNext isWord (e ++ r))
    (h1 : (ty ≠ .Preprocess_Macro_Stmt ∧ ty ≠ .Preprocess_Macro_Expr) ∨ NotNext (fun b => b == 13 || b == 10) r)
    (h : ∀ (p q q' : Pos), foundWord ms ⟨e ++ r ++ [0], q'⟩ ⟨q.off, x.length, .Invalid, p.line, p.col, 0⟩ x (strToTokType x) =
      .ok (⟨r ++ [0], q'.after e⟩, ⟨q.off, x.length, ty, p.line, p.col, fl⟩)) : Takes ms x e r ty fl := by
  intro mem fatal c0 toks p q hs
  obtain ⟨a, v, rfl, ha, hv⟩ := isWord_parts hx
  unfold after
  have hp : Cur.peek ⟨a :: v ++ e ++ r ++ [0], q⟩ = .ok a := rfl
  rw [hp]
  simp only [Res.ok_bind, (word_not_special ha).2.2.2.2]
  have e1 : a :: v ++ e ++ r ++ [0] = a :: v ++ (e ++ r) ++ [0] := by simp
  rw [e1, lexWord_eq hv hr]
  simp only [Res.ok_bind]
  unfold finishToken foundToken
  rw [if_neg (by simp [blankTok])]
  simp only [hs]
  have := h p q (q.after (a :: v))
  simp only [blankTok]
  rw [this]
  simp only [Res.ok_bind]
  by_cases hm : ty = .Preprocess_Macro_Stmt ∨ ty = .Preprocess_Macro_Expr
  · rw [if_pos hm]
    have hr := h1.resolve_left (by rintro ⟨h1, h2⟩; exact hm.elim h1 h2)
    have hn : newlineAfter ⟨r ++ [0], (q.after (a :: v)).after e⟩ (toks ++ [⟨q.off, (a :: v).length, ty, p.line, p.col, fl⟩]) =
        .ok (⟨r ++ [0], (q.after (a :: v)).after e⟩, toks ++ [⟨q.off, (a :: v).length, ty, p.line, p.col, fl⟩]) := by
      unfold newlineAfter eatIf
      cases r with
      | nil => rfl
      | cons b r =>
        have := hr b rfl
        simp at this
        simp [Cur.peek, this.1, this.2, Res.ok_bind]
    rw [hn, after_append]
    rfl
  · rw [if_neg hm, after_append]
    rfl

theorem wordFlags_eq (ty : TokType) : (if (ord ty ≤ ord .Star ∧ ord .Spec_Alignas ≤ ord ty) ∨ ty = .Ampersand ∨ ty = .Ampersand_DBL
    then wordFlags ty 0 ||| fSpecifier else wordFlags ty 0) = keywordFlags ty := by
  cases ty <;> decide

theorem takes_keyword {ms : Macros} {x r : Bytes} {ty : TokType} (hx : IsWord x) (ht : strToTokType x = ty) (hi : ty ≠ .Invalid)
    (he : ty ≠ .Decl_Extern_Linkage) (hm : ty ≠ .Preprocess_Macro_Stmt ∧ ty ≠ .Preprocess_Macro_Expr) (hr : NotNext isWord r) :
    Takes ms x [] r ty (keywordFlags ty) := by
  refine .of_word hx hr (.inl hm) fun p q q' => ?_
  unfold foundWord
  rw [ht, if_neg he]
  have := wordFlags_eq ty
  split at this
  · rename_i h
    rw [if_pos h]
    simp only [this]
    rfl
  · rename_i h
    rw [if_neg h, if_pos hi]
    simp only [this]
    rfl

theorem open_paren (r : Bytes) (q' : Pos) : (if Cur.left ⟨[] ++ r ++ [0], q'⟩ = 0 then Res.ok false
    else (Cur.peek ⟨[] ++ r ++ [0], q'⟩).bind fun b => Res.ok (b == 40)) = .ok (decide (r.head? = some 40)) := by
  cases r with
  | nil => rfl
  | cons b r =>
    rw [if_neg (by simp [Cur.left]; omega)]
    simp only [List.nil_append, List.cons_append, peek_cons, Res.ok_bind, List.head?_cons, Option.some.injEq]
    rfl

theorem wordFlags_none : wordFlags .Invalid 0 = 0 := by decide +kernel
theorem wordFlags_extern : wordFlags .Decl_Extern_Linkage 0 = 0 := by decide +kernel

theorem takes_ident {ms : Macros} {x r : Bytes} (hx : IsWord x) (ht : strToTokType x = .Invalid) (hr : NotNext isWord r)
    (hm : lookupMacro ms x = none ∨ ∃ m, lookupMacro ms x = some m ∧ ¬ UsedAs m r) :
    Takes ms x [] r .Identifier 0 := by
  refine .of_word hx hr (.inl (by decide)) fun p q q' => ?_
  unfold foundWord
  rw [ht, if_neg (by decide), if_neg (by decide), if_neg (by decide)]
  rw [open_paren, Res.ok_bind]
  rcases hm with hm | ⟨m, hm, hu⟩
  · simp only [hm, wordFlags_none]
    rfl
  · simp only [hm, wordFlags_none]
    rw [if_neg (by exact hu)]
    rfl

theorem takes_macro {ms : Macros} {x r : Bytes} {m : MacroInfo} (hx : IsWord x) (ht : strToTokType x = .Invalid) (hr : NotNext isWord r)
    (hm : lookupMacro ms x = some m) (hu : UsedAs m r) (h2 : m.type = 2 ∨ NotNext (fun b => b == 13 || b == 10) r)
    (hmt : macroType m ≠ .Invalid) : Takes ms x [] r (macroType m) (macroUseFlags m) := by
  refine .of_word hx hr ?_ fun p q q' => ?_
  · rcases h2 with h2 | h2
    · refine .inl ?_
      simp [macroType, h2]
    · exact .inr h2
  unfold foundWord
  rw [ht, if_neg (by decide), if_neg (by decide), if_neg (by decide)]
  rw [open_paren, Res.ok_bind, hm]
  simp only
  rw [if_pos (by exact hu)]
  have h3 : macroTokType m.type = macroType m := by
    unfold macroTokType macroType
    by_cases h0 : m.type = 0 <;> by_cases h1 : m.type = 1 <;> by_cases h2 : m.type = 2 <;> simp_all
  have h4 : macroFlags m (decide (r.head? = some 40)) (wordFlags .Invalid 0) = macroUseFlags m := by
    unfold macroFlags macroUseFlags
    rw [← hu]
    rw [wordFlags_none]
    cases m.flags.testBit 0 <;> cases m.flags.testBit 3 <;> cases m.flags.testBit 5 <;> decide
  rw [h3, h4]
  rfl

theorem takes_extern {ms : Macros} {x e r : Bytes} (hx : IsWord x) (ht : strToTokType x = .Decl_Extern_Linkage)
    (hr : NotNext isWord (e ++ r)) (he : ∀ b ∈ e, charIsSpace b = true) (hs : NotNext charIsSpace r) :
    (r.head? ≠ some 34 → Takes ms x e r .Spec_Extern 256) ∧ (r.head? = some 34 → Takes ms x e r .Decl_Extern_Linkage 0) := by
  have hw : ∀ q', skipWs ⟨e ++ r ++ [0], q'⟩ = .ok ⟨r ++ [0], q'.after e⟩ := by
    intro q'
    unfold skipWs
    rw [List.append_assoc, run_after he hs]
    rfl
  constructor
  · intro h
    refine .of_word hx hr (.inl (by decide)) fun p q q' => ?_
    unfold foundWord
    rw [ht, if_pos rfl, hw]
    simp only [Res.ok_bind, peek_rest]
    rw [if_pos, wordFlags_extern]
    · rfl
    · cases r <;> simp_all
  · intro h
    refine .of_word hx hr (.inl (by decide)) fun p q q' => ?_
    unfold foundWord
    rw [ht, if_pos rfl, hw]
    simp only [Res.ok_bind, peek_rest]
    rw [if_neg, wordFlags_extern]
    cases r <;> simp_all

/-! ## Punctuation -/

theorem next_ne {f r : Bytes} {k : UInt8} (h : NotNext (fun b => b ∈ f) r) (hk : k ∈ f) (h0 : k ≠ 0) : r.head?.getD 0 ≠ k := by
  cases r with
  | nil => simpa using h0.symm
  | cons b r =>
    have := h b rfl
    rintro rfl
    simp at this
    exact this hk

theorem moveIfLeft_two (b c : UInt8) (r : Bytes) (p : Pos) : moveIfLeft ⟨b :: c :: r, p⟩ = .ok ⟨c :: r, p.step b⟩ := by
  unfold moveIfLeft
  rw [if_neg (by simp [Cur.left]; omega)]
  rfl

theorem left_two (b c : UInt8) (r : Bytes) (p : Pos) : ¬ Cur.left ⟨b :: c :: r, p⟩ = 0 := by simp [Cur.left]; omega

theorem rep_stop {b : UInt8} {fuel len : Nat} {r : Bytes} {p : Pos} (h : r.head?.getD 0 ≠ b ∨ 3 ≤ len) :
    repLoop b fuel ⟨r ++ [0], p⟩ len = .ok (⟨r ++ [0], p⟩, len) := by
  unfold repLoop
  split
  · rfl
  · rw [peek_rest, Res.ok_bind, if_neg]
    rintro ⟨h1, h2⟩
    rcases h with h | h
    · exact h h1
    · omega

theorem rep_step {b c : UInt8} {fuel len : Nat} {r : Bytes} {p : Pos} (hl : len < 3) :
    repLoop b (fuel + 1) ⟨b :: c :: r, p⟩ len = repLoop b fuel ⟨c :: r, p.step b⟩ (len + 1) := by
  rw [repLoop, if_neg (left_two _ _ _ _), peek_cons, Res.ok_bind, if_pos ⟨rfl, hl⟩]
  rfl

theorem rest_cons (r : Bytes) : ∃ c r', r ++ [0] = c :: r' := by cases r <;> exact ⟨_, _, rfl⟩

theorem rep_step' {b : UInt8} {fuel len : Nat} {r : Bytes} {p : Pos} (hl : len < 3) :
    repLoop b (fuel + 1) ⟨b :: (r ++ [0]), p⟩ len = repLoop b fuel ⟨r ++ [0], p.step b⟩ (len + 1) := by
  obtain ⟨c, r', h⟩ := rest_cons r
  rw [h]
  exact rep_step hl

/-- The switch on a token, as `Takes.of_switch` wants it. -/
def Switches (b : UInt8) (x e r : Bytes) (ty : TokType) (fl : Nat) : Prop :=
  ∀ (fatal : Bool) (p q : Pos), lexSwitch fatal b ⟨x ++ e ++ r ++ [0], q⟩ (blankTok p) =
      .ok (.token ⟨r ++ [0], q.after (x ++ e)⟩ ⟨q.off, x.length, ty, p.line, p.col, fl⟩)

theorem flags_amp (p : Pos) : (blankTok p).flags ||| fOperator ||| fSpecifier = 257 := by
  show (0 ||| 1 ||| 256 : Nat) = 257
  decide
theorem flags_star (p : Pos) : (blankTok p).flags ||| fSpecifier ||| fOperator = 257 := by
  show (0 ||| 256 ||| 1 : Nat) = 257
  decide
theorem flags_starAssign (p : Pos) : (blankTok p).flags ||| fSpecifier ||| fOperator ||| fAssign = 259 := by
  show (0 ||| 256 ||| 1 ||| 2 : Nat) = 259
  decide
theorem flags_opAssign : fOperator ||| fAssign = 3 := by decide
theorem flags_opAccess : fOperator ||| fAccessOperator = 65 := by decide
theorem flags_literal (p : Pos) : (blankTok p).flags ||| fLiteral = 2048 := by
  show (0 ||| 2048 : Nat) = 2048
  decide

section
variable {r : Bytes}

theorem sw_dot (h : NotNext (fun b => b ∈ b!".") r) : Switches 46 b!"." [] r .Access_MemberSymbol 64 := by
  intro fatal p q
  show lexDot fatal ⟨46 :: (r ++ [0]), q⟩ (blankTok p) = _
  simp only [lexDot, moveIfLeft_cons, Res.ok_bind, peek_rest]
  rw [if_neg (next_ne h (by decide) (by decide))]
  rfl

theorem sw_dots : Switches 46 b!"..." [] r .Varadic_Argument 0 := by
  intro fatal p q
  show lexDot fatal ⟨46 :: 46 :: 46 :: (r ++ [0]), q⟩ (blankTok p) = _
  simp only [lexDot, moveIfLeft_two, Res.ok_bind, peek_cons, move_cons, if_true]
  rfl

theorem sw_amp (h : NotNext (fun b => b ∈ b!"&") r) : Switches 38 b!"&" [] r .Ampersand 257 := by
  intro fatal p q
  show lexAmp ⟨38 :: (r ++ [0]), q⟩ (blankTok p) = _
  simp only [lexAmp, flags_amp, moveIfLeft_cons, Res.ok_bind, peek_rest]
  rw [if_neg (next_ne h (by decide) (by decide))]
  rfl

theorem sw_amp2 : Switches 38 b!"&&" [] r .Ampersand_DBL 257 := by
  intro fatal p q
  show lexAmp ⟨38 :: 38 :: (r ++ [0]), q⟩ (blankTok p) = _
  simp only [lexAmp, flags_amp, moveIfLeft_two, moveIfLeft_cons, Res.ok_bind, peek_cons, if_true]
  rfl

theorem sw_colon (h : NotNext (fun b => b ∈ b!":") r) : Switches 58 b!":" [] r .Assign_Classifer 0 := by
  intro fatal p q
  show lexColon ⟨58 :: (r ++ [0]), q⟩ (blankTok p) = _
  simp only [lexColon, moveIfLeft_cons, Res.ok_bind, peek_rest]
  rw [if_neg (next_ne h (by decide) (by decide))]
  rfl

theorem sw_colon2 : Switches 58 b!"::" [] r .Access_StaticSymbol 0 := by
  intro fatal p q
  show lexColon ⟨58 :: 58 :: (r ++ [0]), q⟩ (blankTok p) = _
  simp only [lexColon, moveIfLeft_two, move_cons, Res.ok_bind, peek_cons, if_true]
  rfl

theorem sw_single {b : UInt8} {ty : TokType} {fl : Nat}
    (hs : ∀ fatal c t, lexSwitch fatal b c t = single c t ty fl ∨ (lexSwitch fatal b c t = single c t ty t.flags ∧ fl = 0)) :
    Switches b [b] [] r ty fl := by
  intro fatal p q
  have h : lexSwitch fatal b ⟨b :: (r ++ [0]), q⟩ (blankTok p) = single ⟨b :: (r ++ [0]), q⟩ (blankTok p) ty fl := by
    rcases hs fatal ⟨b :: (r ++ [0]), q⟩ (blankTok p) with h | ⟨h, h2⟩
    · exact h
    · rw [h, h2]; rfl
  show lexSwitch fatal b ⟨b :: (r ++ [0]), q⟩ (blankTok p) = _
  rw [h]
  simp only [single, moveIfLeft_cons, Res.ok_bind]
  rfl

theorem sw_square (h : NotNext (fun b => b ∈ b!"]") r) : Switches 91 b!"[" [] r .BraceSquare_Open 0 := by
  intro fatal p q
  show lexSquare ⟨91 :: (r ++ [0]), q⟩ (blankTok p) = _
  simp only [lexSquare]
  rw [if_neg (left_cons _ _ _)]
  simp only [move_cons, Res.ok_bind, peek_rest]
  rw [if_neg (next_ne h (by decide) (by decide))]
  rfl

theorem sw_square2 : Switches 91 b!"[]" [] r .Operator 0 := by
  intro fatal p q
  show lexSquare ⟨91 :: 93 :: (r ++ [0]), q⟩ (blankTok p) = _
  simp only [lexSquare]
  rw [if_neg (left_two _ _ _ _)]
  simp only [move_cons, Res.ok_bind, peek_cons, if_true]
  rfl

theorem sw_assign {b : UInt8} {ty : TokType} {fl fl1 : Nat} (hs : ∀ fatal c p, lexSwitch fatal b c (blankTok p) = lexWithAssign c (blankTok p) ty fl fl1) :
    (NotNext (fun b => b ∈ b!"=") r → Switches b [b] [] r ty fl) ∧ Switches b [b, 61] [] r ty fl1 := by
  constructor
  · intro h fatal p q
    show lexSwitch fatal b ⟨b :: (r ++ [0]), q⟩ (blankTok p) = _
    rw [hs]
    simp only [lexWithAssign, moveIfLeft_cons, Res.ok_bind, peek_rest]
    rw [if_neg (next_ne h (by decide) (by decide))]
    rfl
  · intro fatal p q
    rw [hs]
    simp only [List.cons_append, List.nil_append, List.append_nil]
    simp only [lexWithAssign, moveIfLeft_two, moveIfLeft_cons, Res.ok_bind, peek_cons, if_true]
    rfl

theorem sw_dash (h : NotNext (fun b => b ∈ b!">=-") r) : Switches 45 b!"-" [] r .Operator 1 := by
  intro fatal p q
  show lexDash ⟨45 :: (r ++ [0]), q⟩ (blankTok p) = _
  simp only [lexDash, flags_opAssign, flags_opAccess]
  rw [if_neg (left_cons _ _ _)]
  simp only [move_cons, Res.ok_bind, peek_rest]
  rw [if_neg (next_ne (k := 62) h (by decide) (by decide)), if_neg (next_ne (k := 61) h (by decide) (by decide)), rep_stop (.inl (next_ne (k := 45) h (by decide) (by decide)))]
  rfl

theorem sw_arrow (h : NotNext (fun b => b ∈ b!"*") r) : Switches 45 b!"->" [] r .Operator 65 := by
  intro fatal p q
  show lexDash ⟨45 :: 62 :: (r ++ [0]), q⟩ (blankTok p) = _
  simp only [lexDash, flags_opAssign, flags_opAccess]
  rw [if_neg (left_two _ _ _ _)]
  simp only [move_cons, Res.ok_bind, peek_cons, if_true, peek_rest]
  rw [if_neg (next_ne h (by decide) (by decide))]
  rfl

theorem sw_arrow2 : Switches 45 b!"->*" [] r .Operator 65 := by
  intro fatal p q
  show lexDash ⟨45 :: 62 :: 42 :: (r ++ [0]), q⟩ (blankTok p) = _
  simp only [lexDash, flags_opAssign, flags_opAccess]
  rw [if_neg (left_two _ _ _ _)]
  simp only [move_cons, Res.ok_bind, peek_cons, if_true]
  rfl

theorem sw_dashAssign : Switches 45 b!"-=" [] r .Operator 3 := by
  intro fatal p q
  show lexDash ⟨45 :: 61 :: (r ++ [0]), q⟩ (blankTok p) = _
  simp only [lexDash, flags_opAssign, flags_opAccess]
  rw [if_neg (left_two _ _ _ _)]
  simp only [move_cons, Res.ok_bind, peek_cons, moveIfLeft_cons]
  rw [if_neg (by decide)]
  rfl

theorem sw_dash2 (h : NotNext (fun b => b ∈ b!"-") r) : Switches 45 b!"--" [] r .Operator 1 := by
  intro fatal p q
  show lexDash ⟨45 :: 45 :: (r ++ [0]), q⟩ (blankTok p) = _
  simp only [lexDash, flags_opAssign, flags_opAccess]
  rw [if_neg (left_two _ _ _ _)]
  simp only [move_cons, Res.ok_bind, peek_cons]
  rw [if_neg (by decide), if_neg (by decide), rep_step' (by decide), rep_stop (.inl (next_ne (k := 45) h (by decide) (by decide)))]
  rfl

theorem sw_dash3 : Switches 45 b!"---" [] r .Operator 1 := by
  intro fatal p q
  show lexDash ⟨45 :: 45 :: 45 :: (r ++ [0]), q⟩ (blankTok p) = _
  simp only [lexDash, flags_opAssign, flags_opAccess]
  rw [if_neg (left_two _ _ _ _)]
  simp only [move_cons, Res.ok_bind, peek_cons]
  rw [if_neg (by decide), if_neg (by decide), rep_step (by decide), List.length_cons, rep_step' (by decide), rep_stop (.inr (by decide))]
  rfl

theorem sw_slash (h : NotNext (fun b => b ∈ b!"=/*") r) : Switches 47 b!"/" [] r .Operator 1 := by
  intro fatal p q
  show lexSlash ⟨47 :: (r ++ [0]), q⟩ (blankTok p) = _
  simp only [lexSlash, move_cons, Res.ok_bind, peek_rest]
  split
  · rfl
  · rw [if_neg (next_ne (k := 61) h (by decide) (by decide)), if_neg (next_ne (k := 47) h (by decide) (by decide)), if_neg (next_ne (k := 42) h (by decide) (by decide))]
    rfl

theorem sw_slashAssign : Switches 47 b!"/=" [] r .Operator 2 := by
  intro fatal p q
  show lexSlash ⟨47 :: 61 :: (r ++ [0]), q⟩ (blankTok p) = _
  simp only [lexSlash, move_cons, Res.ok_bind, peek_cons]
  rw [if_neg (left_cons _ _ _), if_pos trivial]
  rfl

theorem sw_op {b : UInt8} (hb : b ∈ b!"+%^~!<>|") :
    (NotNext (fun c => c ∈ [61, b]) r → Switches b [b] [] r .Operator 1) ∧ Switches b [b, 61] [] r .Operator 3 ∧
    (NotNext (fun c => c ∈ [b]) r → Switches b [b, b] [] r .Operator 1) ∧ Switches b [b, b, b] [] r .Operator 1 := by
  have h61 : b ≠ 61 := by rintro rfl; exact absurd hb (by decide)
  have h0 : b ≠ 0 := by rintro rfl; exact absurd hb (by decide)
  have hs : ∀ fatal c t, lexSwitch fatal b c t = lexOperator b c t := by
    intro fatal c t
    have : ∀ b ∈ b!"+%^~!<>|", lexSwitch fatal b c t = lexOperator b c t := by
      simp only [List.forall_mem_cons]
      exact ⟨rfl, rfl, rfl, rfl, rfl, rfl, rfl, rfl, by simp⟩
    exact this b hb
  refine ⟨?_, ?_, ?_, ?_⟩
  · intro h fatal p q
    show lexSwitch fatal b ⟨b :: (r ++ [0]), q⟩ (blankTok p) = _
    rw [hs]
    simp only [lexOperator, flags_opAssign, moveIfLeft_cons, Res.ok_bind, peek_rest]
    rw [if_neg (next_ne (k := 61) h (by simp) (by decide)), rep_stop (.inl (next_ne (k := b) h (by simp) h0))]
    rfl
  · intro fatal p q
    rw [hs]
    simp only [List.cons_append, List.nil_append, List.append_nil]
    simp only [lexOperator, flags_opAssign, moveIfLeft_two, moveIfLeft_cons, Res.ok_bind, peek_cons, if_true]
    rfl
  · intro h fatal p q
    rw [hs]
    simp only [List.cons_append, List.nil_append, List.append_nil]
    simp only [lexOperator, flags_opAssign, moveIfLeft_two, Res.ok_bind, peek_cons]
    rw [if_neg h61, rep_step' (by decide), rep_stop (.inl (next_ne (k := b) h (by simp) h0))]
    rfl
  · intro fatal p q
    rw [hs]
    simp only [List.cons_append, List.nil_append, List.append_nil]
    simp only [lexOperator, flags_opAssign, moveIfLeft_two, Res.ok_bind, peek_cons]
    rw [if_neg h61, rep_step (by decide), List.length_cons, rep_step' (by decide), rep_stop (.inr (by decide))]
    rfl

end

theorem Takes.of_switches {ms : Macros} {x e r : Bytes} {ty : TokType} {fl : Nat} {b : UInt8} {x' : Bytes} (hx : x = b :: x')
    (hty : ty ≠ .Invalid ∧ ty ≠ .Preprocess_Macro_Stmt ∧ ty ≠ .Preprocess_Macro_Expr) (h : Switches b x e r ty fl) : Takes ms x e r ty fl :=
  .of_switch hx hty.1 hty.2.1 hty.2.2 h

theorem star_switch (fatal : Bool) (c : Cur) (p : Pos) : lexSwitch fatal 42 c (blankTok p) = lexWithAssign c (blankTok p) .Star 257 259 := by
  rw [← flags_star p, ← flags_starAssign p]
  rfl

theorem eq_switch (fatal : Bool) (c : Cur) (p : Pos) : lexSwitch fatal 61 c (blankTok p) = lexWithAssign c (blankTok p) .Operator 3 1 := by
  rw [← flags_opAssign]
  rfl

theorem takes_punct {ms : Macros} {x f r : Bytes} {ty : TokType} {fl : Nat} (hm : (x, f, ty, fl) ∈ punctuation)
    (hf : NotNext (fun b => b ∈ f) r) : Takes ms x [] r ty fl := by
  unfold punctuation at hm
  rcases List.mem_append.1 hm with hm | hm
  · simp only [List.mem_cons, List.not_mem_nil, or_false, Prod.mk.injEq] at hm
    rcases hm with ⟨rfl, rfl, rfl, rfl⟩ | ⟨rfl, rfl, rfl, rfl⟩ | ⟨rfl, rfl, rfl, rfl⟩ | ⟨rfl, rfl, rfl, rfl⟩ | ⟨rfl, rfl, rfl, rfl⟩ |
      ⟨rfl, rfl, rfl, rfl⟩ | ⟨rfl, rfl, rfl, rfl⟩ | ⟨rfl, rfl, rfl, rfl⟩ | ⟨rfl, rfl, rfl, rfl⟩ | ⟨rfl, rfl, rfl, rfl⟩ |
      ⟨rfl, rfl, rfl, rfl⟩ | ⟨rfl, rfl, rfl, rfl⟩ | ⟨rfl, rfl, rfl, rfl⟩ | ⟨rfl, rfl, rfl, rfl⟩ | ⟨rfl, rfl, rfl, rfl⟩ |
      ⟨rfl, rfl, rfl, rfl⟩ | ⟨rfl, rfl, rfl, rfl⟩ | ⟨rfl, rfl, rfl, rfl⟩ | ⟨rfl, rfl, rfl, rfl⟩ | ⟨rfl, rfl, rfl, rfl⟩ |
      ⟨rfl, rfl, rfl, rfl⟩ | ⟨rfl, rfl, rfl, rfl⟩ | ⟨rfl, rfl, rfl, rfl⟩ | ⟨rfl, rfl, rfl, rfl⟩ | ⟨rfl, rfl, rfl, rfl⟩ | ⟨rfl, rfl, rfl, rfl⟩
    · exact .of_switches rfl (by decide) (sw_dot hf)
    · exact .of_switches rfl (by decide) sw_dots
    · exact .of_switches rfl (by decide) (sw_amp hf)
    · exact .of_switches rfl (by decide) sw_amp2
    · exact .of_switches rfl (by decide) (sw_colon hf)
    · exact .of_switches rfl (by decide) sw_colon2
    · exact .of_switches rfl (by decide) (sw_single fun _ _ _ => .inr ⟨rfl, rfl⟩)
    · exact .of_switches rfl (by decide) (sw_square hf)
    · exact .of_switches rfl (by decide) sw_square2
    · exact .of_switches rfl (by decide) (sw_single fun _ _ _ => .inr ⟨rfl, rfl⟩)
    · exact .of_switches rfl (by decide) (sw_single fun _ _ _ => .inr ⟨rfl, rfl⟩)
    · exact .of_switches rfl (by decide) (sw_single fun _ _ _ => .inr ⟨rfl, rfl⟩)
    · exact .of_switches rfl (by decide) (sw_single fun _ _ _ => .inl rfl)
    · exact .of_switches rfl (by decide) (sw_single fun _ _ _ => .inl rfl)
    · exact .of_switches rfl (by decide) ((sw_assign (b := 42) (fl := 257) (fl1 := 259) star_switch).1 hf)
    · exact .of_switches rfl (by decide) (sw_assign (b := 42) (fl := 257) (fl1 := 259) star_switch).2
    · exact .of_switches rfl (by decide) ((sw_assign (b := 61) (fl := 3) (fl1 := 1) eq_switch).1 hf)
    · exact .of_switches rfl (by decide) (sw_assign (b := 61) (fl := 3) (fl1 := 1) eq_switch).2
    · exact .of_switches rfl (by decide) (sw_dash hf)
    · exact .of_switches rfl (by decide) (sw_arrow hf)
    · exact .of_switches rfl (by decide) sw_arrow2
    · exact .of_switches rfl (by decide) sw_dashAssign
    · exact .of_switches rfl (by decide) (sw_dash2 hf)
    · exact .of_switches rfl (by decide) sw_dash3
    · exact .of_switches rfl (by decide) (sw_slash hf)
    · exact .of_switches rfl (by decide) sw_slashAssign
  · obtain ⟨b, hb, hm⟩ := List.mem_flatMap.1 hm
    simp only [List.mem_cons, List.not_mem_nil, or_false, Prod.mk.injEq] at hm
    rcases hm with ⟨rfl, rfl, rfl, rfl⟩ | ⟨rfl, rfl, rfl, rfl⟩ | ⟨rfl, rfl, rfl, rfl⟩ | ⟨rfl, rfl, rfl, rfl⟩
    · exact .of_switches rfl (by decide) ((sw_op hb).1 hf)
    · exact .of_switches rfl (by decide) (sw_op hb).2.1
    · exact .of_switches rfl (by decide) ((sw_op hb).2.2.1 hf)
    · exact .of_switches rfl (by decide) (sw_op hb).2.2.2

end Verif.Lex
