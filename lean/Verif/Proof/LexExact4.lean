import Verif.Proof.LexExact3
/-! # The lexer does what `Lexes` says: directives -/
namespace Verif.Lex

theorem skipWs_eq {g r : Bytes} {q : Pos} (hg : Spaces g) (hr : NotNext charIsSpace r) :
    skipWs ⟨g ++ (r ++ [0]), q⟩ = .ok ⟨r ++ [0], q.after g⟩ := by
  unfold skipWs
  rw [run_after hg hr]
  rfl

/-- The turn up to `#`. -/
theorem turn_hash {mem : Bytes} {fatal : Bool} {g w : Bytes} {p : Pos} {toks : List Tok} {ms : Macros} (hg : GapAt p g) :
    turn mem fatal ⟨⟨g ++ (35 :: w) ++ [0], p⟩, toks, ms⟩ =
      (lexDirective mem fatal ⟨35 :: w ++ [0], p.after g⟩ (blankTok p) toks ms).bind fun r =>
        match r with
        | none => .ok none
        | some (c, toks, ms) => (newlineAfter c toks).bind fun y => .ok (some ⟨y.1, y.2, ms⟩) := by
  unfold turn
  have hfc : firstColumn ⟨g ++ 35 :: w ++ [0], p⟩ = .ok (⟨g ++ 35 :: w ++ [0], p⟩, none) := by
    unfold firstColumn
    split
    · rename_i hc
      obtain ⟨y, z, hyz, h1, h2⟩ : ∃ y z, g ++ 35 :: w ++ [0] = y :: z ∧ y ≠ 13 ∧ y ≠ 10 := by
        cases g with
        | nil => exact ⟨_, _, rfl, by decide, by decide⟩
        | cons y g =>
          have h := hg.2 hc y rfl
          simp at h
          exact ⟨_, _, rfl, h.1, h.2⟩
      rw [hyz]
      simp [eatIf, Cur.peek, h1, h2, Res.ok_bind]
    · rfl
  have hws : skipWs ⟨g ++ 35 :: w ++ [0], p⟩ = .ok ⟨35 :: w ++ [0], p.after g⟩ := by
    rw [List.append_assoc]
    exact skipWs_eq hg.1 (by rintro b ⟨⟩; decide)
  simp only [hfc, hws, Res.ok_bind]
  rw [if_neg (by simp [Cur.left])]
  simp only [List.cons_append, peek_cons, Res.ok_bind]
  rw [if_pos trivial]
  rfl

/-- What `lexDirective` must do to the text `x` (from `#` on). -/
def Directs (ms : Macros) (p q : Pos) (x r : Bytes) (ts : List Tok) (ms1 : Macros) : Prop :=
  ∀ (mem : Bytes) (fatal : Bool) (toks : List Tok) (pre : Bytes), mem = pre ++ (x ++ r ++ [0]) → pre.length = q.off →
    lexDirective mem fatal ⟨x ++ r ++ [0], q⟩ (blankTok p) toks ms = .ok (some (⟨r ++ [0], q.after x⟩, toks ++ ts, ms1))

theorem Directs.turns {ms ms1 : Macros} {p : Pos} {g w nl r : Bytes} {ts tn : List Tok} (hg : GapAt p g)
    (h : Directs ms p (p.after g) (35 :: w) (nl ++ r) ts ms1) (hb : Break (p.after (g ++ 35 :: w)) nl tn r) :
    Turns ms p (g ++ 35 :: w ++ nl) r (ts ++ tn) ms1 := by
  intro mem fatal toks pre hm hp
  have e1 : g ++ 35 :: w ++ nl ++ r ++ [0] = g ++ (35 :: (w ++ (nl ++ r))) ++ [0] := by simp
  rw [e1, turn_hash hg]
  have h2 := h mem fatal toks (pre ++ g) (by rw [hm]; simp) (by rw [after_off]; simp [hp])
  have e2 : 35 :: w ++ (nl ++ r) ++ [0] = 35 :: (w ++ (nl ++ r)) ++ [0] := by simp
  rw [e2] at h2
  rw [h2]
  simp only [Res.ok_bind]
  rw [← after_append, ← List.append_assoc, newlineAfter_eq hb]
  simp only [Res.ok_bind, ← after_append, List.append_assoc]

/-- The head of a directive: `#`, white space, and the word. -/
theorem directive_head {mem : Bytes} {s k y pre : Bytes} {q : Pos} (hs : Spaces s) (hk : ∀ b ∈ k, charIsSpace b = false) (hk0 : k ≠ [])
    (hy : NotNext (fun b => !charIsSpace b) y) (hm : mem = pre ++ (35 :: s ++ k ++ y ++ [0])) (hp : pre.length = q.off) :
    Cur.move ⟨35 :: s ++ k ++ y ++ [0], q⟩ = .ok ⟨s ++ ((k ++ y) ++ [0]), q.step 35⟩ ∧
    skipWs ⟨s ++ ((k ++ y) ++ [0]), q.step 35⟩ = .ok ⟨k ++ y ++ [0], q.after (35 :: s)⟩ ∧
    run (fun b => !charIsSpace b) ⟨k ++ y ++ [0], q.after (35 :: s)⟩ = .ok (⟨y ++ [0], q.after (35 :: s ++ k)⟩, k.length) ∧
    slice mem (q.after (35 :: s)).off k.length = k := by
  refine ⟨?_, ?_, ?_, ?_⟩
  · simp only [List.cons_append, move_cons, List.append_assoc]
  · rw [skipWs_eq hs]
    · rfl
    · obtain ⟨b, k', rfl⟩ := List.exists_cons_of_ne_nil hk0
      rintro c ⟨⟩
      exact hk b (by simp)
  · rw [List.append_assoc, run_after (fun b hb => by simp [hk b hb]) hy, after_append]
  · rw [hm]
    have : pre ++ (35 :: s ++ k ++ y ++ [0]) = (pre ++ 35 :: s) ++ (k ++ (y ++ [0])) := by simp
    rw [this]
    exact slice_mid (by rw [after_off, ← hp]; simp)

theorem toktype_nil : strToTokType [] = .Invalid := by decide +kernel

theorem word_ne {k : Bytes} {ty : TokType} (h : strToTokType k = ty) (hi : ty ≠ .Invalid) : k ≠ [] := by
  rintro rfl
  rw [toktype_nil] at h
  exact hi h.symm

/-! ## `#else`, `#endif` -/

theorem flags_cond (p : Pos) : (blankTok p).flags ||| fPreprocessCond = 16 := by
  show (0 ||| 16 : Nat) = 16
  decide

theorem plain_type {ty : TokType} (h : ty = .Preprocess_Else ∨ ty = .Preprocess_EndIf) :
    ¬ ¬ (ord .Preprocess_Define ≤ ord ty ∧ ord ty ≤ ord .Preprocess_Pragma) := by
  rcases h with rfl | rfl <;> decide

theorem directs_plain {ms : Macros} {p q : Pos} {s k e r : Bytes} {ty : TokType} (hs : Spaces s) (hk : DirectiveWord k ty)
    (ht : ty = .Preprocess_Else ∨ ty = .Preprocess_EndIf) (he : NotNext (fun b => !charIsSpace b) (e ++ r)) (hl : LineEnd e r) :
    Directs ms p q (35 :: s ++ k ++ e) r
      [tokAt q 1 .Preprocess_Hash 8, ⟨q.off + (35 :: s).length, k.length, ty, p.line, p.col, 16⟩] ms := by
  intro mem fatal toks pre hm hp
  obtain ⟨h1, h2, h3, h4⟩ := directive_head (mem := mem) (y := e ++ r) hs hk.1 (word_ne hk.2 (by rcases ht with rfl | rfl <;> decide)) he
    (by rw [hm]; simp) hp
  have e1 : 35 :: s ++ k ++ e ++ r ++ [0] = 35 :: s ++ k ++ (e ++ r) ++ [0] := by simp
  rw [e1]
  unfold lexDirective
  simp only [h1, h2, h3, h4, Res.ok_bind, hk.2, flags_cond]
  rw [if_neg (plain_type ht), if_pos ht, endLine_eq hl]
  simp only [Res.ok_bind, after_append, after_off]
  simp [tokAt, Cur.tok, fPreprocess]
  exact ⟨rfl, rfl⟩

/-! ## Contents -/

theorem contentLoop_eq {fatal : Bool} : ∀ (c r : Bytes) (q : Pos) (fuel : Nat), PlainLine c → NotNext (fun b => b != 10 && b != 13) r → c.length < fuel →
    contentLoop fatal fuel false false ⟨c ++ (r ++ [0]), q⟩ = .ok (some (⟨r ++ [0], q.after c⟩, c.length))
  | [], r, q, fuel, _, hr, hf => by
    unfold contentLoop
    split
    · rfl
    · cases fuel with
      | zero => simp at hf
      | succ fuel =>
        rename_i hl
        cases r with
        | nil => simp [Cur.left] at hl
        | cons b r =>
          have := hr b rfl
          have hb : b = 10 ∨ b = 13 := by
            simp at this
            by_cases h : b = 10
            · exact .inl h
            · exact .inr (this h)
          rcases hb with rfl | rfl <;> rfl
  | b :: c, r, q, fuel, hc, hr, hf => by
    cases fuel with
    | zero => simp at hf
    | succ fuel =>
      have ih := contentLoop_eq (fatal := fatal) c r (q.step b) fuel (fun x hx => hc x (by simp [hx])) hr (by simpa using hf)
      obtain ⟨h1, h2, h3, h4, h5⟩ := hc b (by simp)
      unfold contentLoop
      rw [if_neg (by simp [Cur.left]; omega)]
      simp only [List.cons_append, peek_cons, Res.ok_bind, h1, h2, h3, h4, h5, false_and, if_false, or_self]
      simp only [move_cons, Res.ok_bind, ih, after_cons, List.length_cons]
      simp [Nat.add_comm]

theorem cond_flags {ty : TokType} {fl : Nat} (h : (ty, fl) ∈ contentDirectives) (p : Pos) :
    (if ord .Preprocess_If ≤ ord ty ∧ ord ty ≤ ord .Preprocess_ElIf then (blankTok p).flags ||| fPreprocessCond else (blankTok p).flags) = fl := by
  rw [flags_cond]
  show (if _ then 16 else 0) = fl
  have : ∀ y ∈ contentDirectives, (if ord .Preprocess_If ≤ ord y.1 ∧ ord y.1 ≤ ord .Preprocess_ElIf then 16 else 0) = y.2 := by decide
  exact this _ h

theorem content_type {ty : TokType} {fl : Nat} (h : (ty, fl) ∈ contentDirectives) :
    ¬ ¬ (ord .Preprocess_Define ≤ ord ty ∧ ord ty ≤ ord .Preprocess_Pragma) ∧ ¬ (ty = .Preprocess_Else ∨ ty = .Preprocess_EndIf) ∧
    ty ≠ .Preprocess_Define ∧ ty ≠ .Preprocess_Include ∧ ty ≠ .Invalid := by
  have : ∀ y ∈ contentDirectives, ¬ ¬ (ord .Preprocess_Define ≤ ord y.1 ∧ ord y.1 ≤ ord .Preprocess_Pragma) ∧
    ¬ (y.1 = .Preprocess_Else ∨ y.1 = .Preprocess_EndIf) ∧
    y.1 ≠ .Preprocess_Define ∧ y.1 ≠ .Preprocess_Include ∧ y.1 ≠ .Invalid := by decide
  exact this _ h

theorem space_next {s' y : Bytes} (hs : Spaces s') (h0 : s' ≠ []) : NotNext (fun b => !charIsSpace b) (s' ++ y) := by
  obtain ⟨b, s, rfl⟩ := List.exists_cons_of_ne_nil h0
  rintro c ⟨⟩
  simp [hs b (by simp)]

theorem directs_content {ms : Macros} {p q : Pos} {s k s' c r : Bytes} {ty : TokType} {fl : Nat} (hs : Spaces s) (hk : DirectiveWord k ty)
    (ht : (ty, fl) ∈ contentDirectives) (hs' : Spaces s') (h0 : s' ≠ []) (hc : PlainLine c) (hn : NotNext charIsSpace (c ++ r))
    (hr : NotNext (fun b => b != 10 && b != 13) r) :
    Directs ms p q (35 :: s ++ k ++ s' ++ c) r
      [tokAt q 1 .Preprocess_Hash 8, ⟨q.off + (35 :: s).length, k.length, ty, p.line, p.col, fl⟩,
        tokAt (q.after (35 :: s ++ k ++ s')) c.length .Preprocess_Content 8] ms := by
  intro mem fatal toks pre hm hp
  obtain ⟨t1, t2, t3, t4, t5⟩ := content_type ht
  obtain ⟨h1, h2, h3, h4⟩ := directive_head (mem := mem) (y := s' ++ (c ++ r)) hs hk.1 (word_ne hk.2 t5) (space_next hs' h0)
    (by rw [hm]; simp) hp
  have e1 : 35 :: s ++ k ++ s' ++ c ++ r ++ [0] = 35 :: s ++ k ++ (s' ++ (c ++ r)) ++ [0] := by simp
  rw [e1]
  unfold lexDirective
  simp only [h1, h2, h3, h4, Res.ok_bind, hk.2, cond_flags ht]
  rw [if_neg t1, if_neg t2, List.append_assoc s', skipWs_eq hs' hn]
  simp only [Res.ok_bind]
  rw [if_neg t3, Res.ok_bind]
  simp only
  rw [if_neg t4, List.append_assoc, contentLoop_eq c r _ _ hc hr (by simp; omega)]
  simp only [Res.ok_bind, after_off, ← after_append, List.append_assoc, List.cons_append, List.nil_append]
  rfl

/-! ## `#include` -/

theorem include_end {nl r : Bytes} {Q : Pos} {toks : List Tok} {ms : Macros}
    (hn : nl = [10] ∨ nl = [13, 10] ∨ (nl = [] ∧ NotNext (fun b => b == 13 || b == 10) r)) :
    ((Cur.peek ⟨nl ++ r ++ [0], Q⟩).bind fun b =>
        if b = 13 then
          (Cur.peek1 ⟨nl ++ r ++ [0], Q⟩).bind fun b1 =>
          if b1 = 10 then (Cur.move ⟨nl ++ r ++ [0], Q⟩).bind fun c => c.move.bind fun c => Res.ok (some (c, toks, ms))
          else Res.ok (some (⟨nl ++ r ++ [0], Q⟩, toks, ms))
        else if b = 10 then (Cur.move ⟨nl ++ r ++ [0], Q⟩).bind fun c => Res.ok (some (c, toks, ms))
        else Res.ok (some (⟨nl ++ r ++ [0], Q⟩, toks, ms))) = .ok (some (⟨r ++ [0], Q.after nl⟩, toks, ms)) := by
  rcases hn with rfl | rfl | ⟨rfl, hn⟩
  · rfl
  · rfl
  · cases r with
    | nil => rfl
    | cons b r =>
      have := hn b rfl
      simp at this
      simp [Cur.peek, Res.ok_bind, this.1, this.2, after_nil]

theorem directs_include {ms : Macros} {p q : Pos} {s k s' d nl r : Bytes} {o c : UInt8} (hs : Spaces s)
    (hk : DirectiveWord k .Preprocess_Include) (hs' : Spaces s') (h0 : s' ≠ []) (ho : o = 34 ∨ o = 60) (hd : ∀ b ∈ d, b ≠ 34 ∧ b ≠ 62)
    (hc : c = 34 ∨ c = 62) (hn : nl = [10] ∨ nl = [13, 10] ∨ (nl = [] ∧ NotNext (fun b => b == 13 || b == 10) r)) :
    Directs ms p q (35 :: s ++ k ++ s' ++ (o :: d ++ [c]) ++ nl) r
      [tokAt q 1 .Preprocess_Hash 8, ⟨q.off + (35 :: s).length, k.length, .Preprocess_Include, p.line, p.col, 0⟩,
        tokAt (q.after (35 :: s ++ k ++ s')) (d.length + 2) .String 8] ms := by
  intro mem fatal toks pre hm hp
  obtain ⟨h1, h2, h3, h4⟩ := directive_head (mem := mem) (y := s' ++ (o :: (d ++ c :: (nl ++ r)))) hs hk.1 (word_ne hk.2 (by decide)) (space_next hs' h0)
    (by rw [hm]; simp) hp
  have e1 : 35 :: s ++ k ++ s' ++ (o :: d ++ [c]) ++ nl ++ r ++ [0] = 35 :: s ++ k ++ (s' ++ (o :: (d ++ c :: (nl ++ r)))) ++ [0] := by simp
  rw [e1]
  unfold lexDirective
  simp only [h1, h2, h3, h4, Res.ok_bind, hk.2]
  rw [if_neg (by decide), if_neg (by decide), List.append_assoc s', skipWs_eq hs' (by
    rintro b ⟨⟩
    rcases ho with rfl | rfl <;> decide)]
  simp only [Res.ok_bind]
  rw [if_neg (by decide), Res.ok_bind]
  simp only
  rw [if_pos trivial]
  simp only [List.cons_append, peek_cons, Res.ok_bind]
  rw [if_neg (by rcases ho with rfl | rfl <;> decide)]
  simp only [move_cons, Res.ok_bind]
  have e2 : d ++ c :: (nl ++ r) ++ [0] = d ++ ((c :: (nl ++ r)) ++ [0]) := by simp
  rw [e2, run_after (fun x hx => by have := hd x hx; simp [this.1, this.2]) (by
    rintro b ⟨⟩
    rcases hc with rfl | rfl <;> decide)]
  simp only [Res.ok_bind, List.cons_append, move_cons]
  rw [include_end hn]
  have e4 : (if ord .Preprocess_If ≤ ord .Preprocess_Include ∧ ord .Preprocess_Include ≤ ord .Preprocess_ElIf then
      (blankTok p).flags ||| fPreprocessCond else (blankTok p).flags) = (blankTok p).flags := if_neg (by decide)
  rw [e4]
  have e5 : 1 + d.length + 1 = d.length + 2 := by omega
  have e6 : q.off + (35 :: s).length = (q.step 35).off + s.length := by rw [step_off]; simp; omega
  rw [e6]
  simp only [e5, after_off, after_append, after_cons, List.append_assoc, List.cons_append, List.nil_append]
  rfl

/-! ## `#define` -/

theorem space_not_word {b : UInt8} (h : charIsSpace b = true) : isWord b = false ∧ b ≠ 41 := by
  have : b = 32 ∨ b = 9 ∨ b = 10 ∨ b = 13 ∨ b = 12 ∨ b = 11 := by
    simp [charIsSpace] at h
    grind
  rcases this with rfl | rfl | rfl | rfl | rfl | rfl <;> decide

theorem alpha_facts {a : UInt8} (ha : charIsAlpha a = true ∨ a = 95) : a ≠ 41 ∧ a ≠ 46 ∧ a ≠ 92 ∧ a ≠ 44 := by
  refine ⟨?_, ?_, ?_, ?_⟩ <;> rintro rfl <;> exact absurd ha (by decide)

/-- The first half of a turn of the parameter loop: white space. -/
theorem paramLoop_gap {fatal : Bool} {s z : Bytes} {b : UInt8} {p : Pos} {fuel : Nat} {toks : List Tok} (hs : Spaces s)
    (hb : charIsSpace b = false) (h41 : b ≠ 41) :
    ¬ Cur.left ⟨s ++ ((b :: z) ++ [0]), p⟩ = 0 ∧
    (∃ c, Cur.peek ⟨s ++ ((b :: z) ++ [0]), p⟩ = .ok c ∧ c ≠ 41) ∧
    skipWs ⟨s ++ ((b :: z) ++ [0]), p⟩ = .ok ⟨b :: (z ++ [0]), p.after s⟩ := by
  refine ⟨by simp [Cur.left]; omega, ?_, skipWs_eq hs (by rintro c ⟨⟩; exact hb)⟩
  cases s with
  | nil => exact ⟨b, rfl, h41⟩
  | cons c s => exact ⟨c, rfl, (space_not_word (hs c (by simp))).2⟩

theorem paramLoop_word {fatal : Bool} {s x s' z : Bytes} {e : UInt8} {p : Pos} {fuel : Nat} {toks : List Tok} (hs : Spaces s)
    (hx : IsWord x) (hs' : Spaces s') (he : e = 41 ∨ e = 44) :
    paramLoop fatal (fuel + 1) ⟨s ++ x ++ s' ++ (e :: z ++ [0]), p⟩ toks =
      if e = 41 then .ok (some (⟨e :: z ++ [0], p.after (s ++ x ++ s')⟩, toks ++ [tokAt (p.after s) x.length .Preprocess_Define_Param 8]))
      else paramLoop fatal fuel ⟨z ++ [0], p.after (s ++ x ++ s' ++ [e])⟩
        (toks ++ [tokAt (p.after s) x.length .Preprocess_Define_Param 8] ++ [tokAt (p.after (s ++ x ++ s')) 1 .Comma 8]) := by
  obtain ⟨a, v, rfl, ha, hv⟩ := isWord_parts hx
  obtain ⟨n41, n46, n92, n44⟩ := alpha_facts ha
  have hes : charIsSpace e = false ∧ isWord e = false := by rcases he with rfl | rfl <;> decide
  obtain ⟨h1, ⟨c, h2, h3⟩, h4⟩ := paramLoop_gap (fatal := fatal) (fuel := fuel) (toks := toks) (s := s) (z := v ++ (s' ++ e :: z)) (b := a) (p := p) hs (alpha_head ha).1 n41
  have e1 : s ++ a :: v ++ s' ++ (e :: z ++ [0]) = s ++ ((a :: (v ++ (s' ++ e :: z))) ++ [0]) := by simp
  rw [e1]
  rw [paramLoop, if_neg h1, h2, Res.ok_bind, if_neg h3]
  simp only [h4, Res.ok_bind]
  rw [if_neg (by
    rintro ⟨_, h⟩
    simp at h
    exact n46 h.1)]
  simp only [peek_cons, Res.ok_bind]
  rw [if_neg n92, if_pos ha]
  simp only [move_cons, Res.ok_bind]
  have e2 : v ++ (s' ++ e :: z) ++ [0] = v ++ ((s' ++ e :: z) ++ [0]) := by simp
  have hsp : NotNext isWord (s' ++ e :: z) := by
    cases s' with
    | nil => rintro b ⟨⟩; exact hes.2
    | cons b s' => rintro c ⟨⟩; exact (space_not_word (hs' b (by simp))).1
  rw [e2, run_after hv hsp]
  simp only [Res.ok_bind]
  have e3 : s' ++ e :: z ++ [0] = s' ++ ((e :: z) ++ [0]) := by simp
  rw [e3, skipWs_eq hs' (by rintro b ⟨⟩; exact hes.1)]
  simp only [Res.ok_bind, List.cons_append, peek_cons]
  have e4 : ∀ Q : Bytes, ({ Cur.tok ⟨Q, p.after s⟩ 1 .Preprocess_Define_Param fPreprocess with len := 1 + v.length } : Tok) =
      tokAt (p.after s) (a :: v).length .Preprocess_Define_Param 8 := by
    intro Q
    simp only [Cur.tok, tokAt, fPreprocess, List.length_cons]
    congr 1
    omega
  simp only [e4]
  rcases he with rfl | rfl
  · rw [if_pos rfl, if_pos rfl]
    simp only [after_append, after_cons]
  · rw [if_neg (by decide), if_neg (by decide), if_neg (by decide)]
    simp only [move_cons, Res.ok_bind, after_append, after_cons, after_nil]
    rfl

theorem paramLoop_dots {fatal : Bool} {s s' z : Bytes} {p : Pos} {fuel : Nat} {toks : List Tok} (hs : Spaces s) (hs' : Spaces s') :
    paramLoop fatal (fuel + 1) ⟨s ++ b!"..." ++ s' ++ (41 :: z ++ [0]), p⟩ toks =
      .ok (some (⟨41 :: z ++ [0], p.after (s ++ b!"..." ++ s')⟩, toks ++ [tokAt (p.after s) 3 .Preprocess_Define_Param 8])) := by
  obtain ⟨h1, ⟨c, h2, h3⟩, h4⟩ := paramLoop_gap (fatal := fatal) (fuel := fuel) (toks := toks) (s := s) (z := 46 :: 46 :: (s' ++ 41 :: z)) (b := 46) (p := p) hs (by decide) (by decide)
  have e1 : s ++ b!"..." ++ s' ++ (41 :: z ++ [0]) = s ++ ((46 :: 46 :: 46 :: (s' ++ 41 :: z)) ++ [0]) := by simp
  rw [e1]
  rw [paramLoop, if_neg h1, h2, Res.ok_bind, if_neg h3]
  simp only [h4, Res.ok_bind]
  rw [if_pos (by
    constructor
    · simp [Cur.left]; omega
    · simp)]
  simp only [List.cons_append, move_cons, Res.ok_bind]
  have e3 : s' ++ 41 :: z ++ [0] = s' ++ ((41 :: z) ++ [0]) := by simp
  rw [e3, skipWs_eq hs' (by rintro b ⟨⟩; decide)]
  simp only [Res.ok_bind, List.cons_append]
  unfold slashes
  simp only [peek_cons, Res.ok_bind]
  rw [if_neg (by decide)]
  simp only [peek_cons, Res.ok_bind]
  rw [if_neg (by decide)]
  simp only [after_append, after_cons, after_nil]
  rfl

theorem paramLoop_eq {fatal : Bool} {p : Pos} {w : Bytes} {ts : List Tok} (h : DefParams p w ts) : ∀ (fuel : Nat) (z : Bytes) (toks : List Tok), w.length < fuel →
    paramLoop fatal fuel ⟨w ++ (41 :: z ++ [0]), p⟩ toks = .ok (some (⟨41 :: z ++ [0], p.after w⟩, toks ++ ts)) := by
  induction h with
  | nil =>
    intro fuel z toks hf
    rw [paramLoop.eq_def]
    simp only [List.nil_append]
    rw [List.cons_append, if_neg (left_cons _ _ _)]
    simp only [peek_cons, Res.ok_bind]
    rw [if_pos trivial]
    simp [after_nil]
  | one h1 h2 h3 =>
    intro fuel z toks hf
    cases fuel with
    | zero => simp at hf
    | succ fuel => rw [paramLoop_word h1 h2 h3 (.inl rfl), if_pos rfl]
  | dots h1 h2 =>
    intro fuel z toks hf
    cases fuel with
    | zero => simp at hf
    | succ fuel => exact paramLoop_dots h1 h2
  | @more p s x s' w ts h1 h2 h3 h4 ih =>
    intro fuel z toks hf
    cases fuel with
    | zero => simp at hf
    | succ fuel =>
      have e1 : s ++ x ++ s' ++ [44] ++ w ++ (41 :: z ++ [0]) = s ++ x ++ s' ++ (44 :: (w ++ 41 :: z) ++ [0]) := by simp
      rw [e1, paramLoop_word h1 h2 h3 (.inr rfl), if_neg (by decide)]
      have := ih fuel z (toks ++ [tokAt (p.after s) x.length .Preprocess_Define_Param 8] ++ [tokAt (p.after (s ++ x ++ s')) 1 .Comma 8])
        (by simp at hf; omega)
      have e2 : w ++ (41 :: z ++ [0]) = w ++ 41 :: z ++ [0] := by simp
      rw [e2] at this
      rw [this]
      simp only [after_append, after_cons, after_nil, List.append_assoc, List.cons_append, List.nil_append]

theorem lexDefine_eq {mem pre : Bytes} {fatal : Bool} {p : Pos} {n h y : Bytes} {toks ts : List Tok} {ms : Macros} {f : Bool}
    (hd : DefHead p n h ts f) (hf : f = false → NotNext (fun b => isWord b || b == 40) y) (hm : mem = pre ++ (h ++ y ++ [0]))
    (hp : pre.length = p.off) :
    lexDefine mem fatal ⟨h ++ (y ++ [0]), p⟩ toks ms = .ok (some (⟨y ++ [0], p.after h⟩, toks ++ ts, defineMacro ms n f)) := by
  have hn : IsWord n := by cases hd <;> assumption
  obtain ⟨a, v, rfl, ha, hv⟩ := isWord_parts hn
  have main : ∀ z : Bytes, NotNext isWord z → mem = pre ++ (a :: v ++ z ++ [0]) →
      run isWord ⟨v ++ (z ++ [0]), p.step a⟩ = .ok (⟨z ++ [0], p.after (a :: v)⟩, v.length) ∧ slice mem p.off (1 + v.length) = a :: v := by
    intro z hz hm
    refine ⟨run_after hv hz, ?_⟩
    have : 1 + v.length = (a :: v).length := by simp; omega
    rw [hm, this, List.append_assoc]
    exact slice_mid hp.symm
  have e5 : ∀ (Q : Bytes), ({ Cur.tok ⟨Q, p⟩ 1 .Identifier fPreprocess with len := 1 + v.length } : Tok) =
      tokAt p (a :: v).length .Identifier 8 := by
    intro Q
    simp only [Cur.tok, tokAt, fPreprocess, List.length_cons]
    congr 1
    omega
  cases hd with
  | object _ =>
    have hy := hf rfl
    obtain ⟨m1, m2⟩ := main y (fun b hb => by have := hy b hb; simp only [Bool.or_eq_false_iff] at this; exact this.1) hm
    unfold lexDefine
    simp only [List.cons_append, move_cons, Res.ok_bind, m1, e5]
    have e6 : ∀ Q, slice mem (Cur.tok ⟨Q, p⟩ 1 .Identifier fPreprocess).start (1 + v.length) = a :: v := fun _ => m2
    simp only [e6]
    have e7 : (if (lookupMacro ms (a :: v)).isNone = true then (Crc.crc32 (a :: v), MacroInfo.mk 0 0) :: ms else ms) = defineMacro ms (a :: v) false := by
      simp [defineMacro]
    rw [e7]
    split
    · rfl
    · rw [peek_rest, Res.ok_bind, if_neg]
      cases y with
      | nil => simp
      | cons b y =>
        have := hy b rfl
        simp at this
        simpa using this.2
  | @functional w ts _ hpar =>
    obtain ⟨m1, m2⟩ := main (40 :: (w ++ 41 :: y)) (by rintro b ⟨⟩; decide) (by rw [hm]; simp)
    unfold lexDefine
    have e1 : a :: v ++ [40] ++ w ++ [41] ++ (y ++ [0]) = a :: (v ++ ((40 :: (w ++ 41 :: y)) ++ [0])) := by simp
    rw [e1]
    simp only [move_cons, Res.ok_bind, m1, e5]
    have e6 : ∀ Q, slice mem (Cur.tok ⟨Q, p⟩ 1 .Identifier fPreprocess).start (1 + v.length) = a :: v := fun _ => m2
    simp only [e6]
    rw [if_neg (by simp [Cur.left]; omega)]
    simp only [List.cons_append, peek_cons, Res.ok_bind]
    rw [if_pos trivial]
    simp only [move_cons, Res.ok_bind]
    rw [after_append, after_cons (p.after (a :: v)), after_nil] at hpar
    have e8 : w ++ 41 :: y ++ [0] = w ++ (41 :: y ++ [0]) := by simp
    rw [e8, paramLoop_eq hpar _ _ _ (by simp; omega)]
    simp only [Res.ok_bind, List.cons_append, peek_cons]
    rw [if_neg (by decide)]
    simp only [move_cons, Res.ok_bind]
    unfold defineMacro
    simp only [after_append, after_cons, after_nil, List.append_assoc, List.cons_append, List.nil_append]
    cases lookupMacro ms (a :: v) <;> rfl

theorem directs_define {ms : Macros} {p q : Pos} {s k s' n h c r : Bytes} {ts : List Tok} {f : Bool} (hs : Spaces s)
    (hk : DirectiveWord k .Preprocess_Define) (hs' : Spaces s') (h0 : s' ≠ []) (hd : DefHead (q.after (35 :: s ++ k ++ s')) n h ts f)
    (hf : f = false → NotNext (fun b => isWord b || b == 40) (c ++ r)) (hc : PlainLine c)
    (hr : NotNext (fun b => b != 10 && b != 13) r) :
    Directs ms p q (35 :: s ++ k ++ s' ++ h ++ c) r
      ([tokAt q 1 .Preprocess_Hash 8, ⟨q.off + (35 :: s).length, k.length, .Preprocess_Define, p.line, p.col, 0⟩] ++ ts ++
        [tokAt (q.after (35 :: s ++ k ++ s' ++ h)) c.length .Preprocess_Content 8]) (defineMacro ms n f) := by
  intro mem fatal toks pre hm hp
  obtain ⟨h1, h2, h3, h4⟩ := directive_head (mem := mem) (y := s' ++ (h ++ (c ++ r))) hs hk.1 (word_ne hk.2 (by decide)) (space_next hs' h0)
    (by rw [hm]; simp) hp
  have e1 : 35 :: s ++ k ++ s' ++ h ++ c ++ r ++ [0] = 35 :: s ++ k ++ (s' ++ (h ++ (c ++ r))) ++ [0] := by simp
  rw [e1]
  have hh : NotNext charIsSpace (h ++ (c ++ r)) := by
    have hn : IsWord n := by cases hd <;> assumption
    obtain ⟨a, v, rfl, ha, hv⟩ := isWord_parts hn
    cases hd <;> (rintro b ⟨⟩; exact (alpha_head ha).1)
  unfold lexDirective
  simp only [h1, h2, h3, h4, Res.ok_bind, hk.2]
  rw [if_neg (by decide), if_neg (by decide), List.append_assoc s', skipWs_eq hs' hh]
  simp only [Res.ok_bind]
  rw [if_pos trivial, List.append_assoc h, ← after_append]
  rw [lexDefine_eq (pre := pre ++ (35 :: s ++ k ++ s')) hd hf (by rw [hm]; simp) (by rw [after_off]; simp [hp])]
  simp only [Res.ok_bind]
  rw [if_neg (by decide), List.append_assoc, contentLoop_eq c r _ _ hc hr (by simp; omega)]
  have e4 : (if ord .Preprocess_If ≤ ord .Preprocess_Define ∧ ord .Preprocess_Define ≤ ord .Preprocess_ElIf then
      (blankTok p).flags ||| fPreprocessCond else (blankTok p).flags) = (blankTok p).flags := if_neg (by decide)
  rw [e4]
  have e6 : q.off + (35 :: s).length = (q.step 35).off + s.length := by rw [step_off]; simp; omega
  rw [e6]
  simp only [Res.ok_bind, after_off, after_append, after_cons, List.append_assoc, List.cons_append, List.nil_append]
  rfl

/-! ## All directives -/

theorem turns_directive {ms ms1 : Macros} {p : Pos} {x nl r : Bytes} {td tn : List Tok} (hd : Directive ms p x (nl ++ r) td ms1)
    (hb : Break (p.after x) nl tn r) : Turns ms p (x ++ nl) r (td ++ tn) ms1 := by
  cases hd with
  | @«include» g s k s' o d c nl' _ h1 h2 h3 h4 h5 h6 h7 h8 h9 =>
    have e1 : g ++ 35 :: s ++ k ++ s' ++ (o :: d ++ [c]) ++ nl' = g ++ 35 :: (s ++ k ++ s' ++ (o :: d ++ [c]) ++ nl') := by simp
    rw [e1] at hb ⊢
    refine Directs.turns h1 ?_ hb
    have := directs_include (ms := ms) (p := p) (q := p.after g) h2 h3 h4 h5 h6 h7 h8 h9
    simp only [directiveToks, List.cons_append, List.nil_append, ← after_append, after_off, List.append_assoc, List.length_append, Nat.add_assoc] at this ⊢
    exact this
  | @content g s k s' c _ ty fl h1 h2 h3 h4 h5 h6 h7 h8 h9 =>
    have e1 : g ++ 35 :: s ++ k ++ s' ++ c = g ++ 35 :: (s ++ k ++ s' ++ c) := by simp
    rw [e1] at hb ⊢
    refine Directs.turns h1 ?_ hb
    have := directs_content (ms := ms) (p := p) (q := p.after g) h2 h3 h4 h5 h6 h7 h8 h9
    simp only [directiveToks, List.cons_append, List.nil_append, ← after_append, after_off, List.append_assoc, List.length_append, Nat.add_assoc] at this ⊢
    exact this
  | @plain g s k e _ ty h1 h2 h3 h4 h5 h6 =>
    have e1 : g ++ 35 :: s ++ k ++ e = g ++ 35 :: (s ++ k ++ e) := by simp
    rw [e1] at hb ⊢
    refine Directs.turns h1 ?_ hb
    have := directs_plain (ms := ms) (p := p) (q := p.after g) h2 h3 h4 h5 h6
    simp only [directiveToks, List.cons_append, List.nil_append, ← after_append, after_off, List.append_assoc, List.length_append, Nat.add_assoc] at this ⊢
    exact this
  | @define g s k s' n h c _ ts f h1 h2 h3 h4 h5 h6 h7 h8 h9 =>
    have e1 : g ++ 35 :: s ++ k ++ s' ++ h ++ c = g ++ 35 :: (s ++ k ++ s' ++ h ++ c) := by simp
    rw [e1] at hb ⊢
    refine Directs.turns h1 ?_ hb
    have e2 : p.after (g ++ 35 :: s ++ k ++ s') = (p.after g).after (35 :: s ++ k ++ s') := by rw [← after_append]; simp
    rw [e2] at h6
    have := directs_define (ms := ms) (p := p) (q := p.after g) h2 h3 h4 h5 h6 h7 h8 h9
    simp only [directiveToks, List.cons_append, List.nil_append, ← after_append, after_off, List.append_assoc, List.length_append, Nat.add_assoc] at this ⊢
    exact this

end Verif.Lex
