import Verif.Props.Lexer
/-! # C27, C28: exactly which tokens a line of words gives -/
namespace Verif.Lex

theorem runL_exact {P : UInt8 → Bool} : ∀ (v : Bytes) (b : UInt8) (r : Bytes) (o l k : Nat), (∀ x ∈ v, P x = true ∧ x ≠ 10) → (r = [] ∨ P b = false) →
    runL P (v ++ b :: r) ⟨o, l, k⟩ = .ok (⟨b :: r, ⟨o + v.length, l, k + v.length⟩⟩, v.length)
  | [], b, [], o, l, k, _, _ => rfl
  | [], b, b2 :: r, o, l, k, _, h => by
    have : P b = false := h.resolve_left (by simp)
    simp [runL, this]
  | x :: v, b, r, o, l, k, hv, h => by
    have ih := runL_exact v b r (o + 1) l (k + 1) (fun y hy => hv y (by simp [hy])) h
    obtain ⟨h1, h2⟩ := hv x (by simp)
    obtain ⟨y, z, hyz⟩ : ∃ y z, v ++ b :: r = y :: z := by cases v <;> exact ⟨_, _, rfl⟩
    rw [List.cons_append]
    rw [hyz] at ih ⊢
    rw [runL, if_pos h1]
    have hs : Pos.step ⟨o, l, k⟩ x = ⟨o + 1, l, k + 1⟩ := by simp [Pos.step, h2]
    rw [hs, ih]
    simp
    omega

/-- The tokens for the words of a line: each recorded at the column behind its predecessor, `col`. -/
def wordToks : Nat → List (Bytes × Bytes) → List Tok
  | _, [] => []
  | off, (g, x) :: r => ⟨off + g.length, x.length, .Identifier, 1, off + 1, 0⟩ :: wordToks (off + g.length + x.length) r

/-- The text of a line of words, each behind its gap. -/
def lineText : List (Bytes × Bytes) → Bytes
  | [] => []
  | (g, x) :: r => g ++ x ++ lineText r

/-- Blanks and tabs. -/
def Blank (g : Bytes) : Prop := ∀ b ∈ g, b = 32 ∨ b = 9

/-- An identifier that is neither a keyword nor a macro. -/
def PlainWord (ms : Macros) (x : Bytes) : Prop := IsWord x ∧ strToTokType x = .Invalid ∧ lookupMacro ms x = none

theorem blank_space {g : Bytes} (h : Blank g) : ∀ b ∈ g, charIsSpace b = true ∧ b ≠ 10 := by
  intro b hb
  rcases h b hb with rfl | rfl <;> decide

theorem word_not_special {b : UInt8} (h : charIsAlpha b = true ∨ b = 95) : charIsSpace b = false ∧ b ≠ 10 ∧ b ≠ 13 ∧ b ≠ 35 ∧
    ∀ fatal c t, lexSwitch fatal b c t = lexWord c t := by
  have hb : (65 ≤ b.toNat ∧ b.toNat ≤ 90) ∨ (97 ≤ b.toNat ∧ b.toNat ≤ 122) ∨ b.toNat = 95 := by
    rcases h with h | rfl
    · simp only [charIsAlpha, Bool.or_eq_true, Bool.and_eq_true, decide_eq_true_eq, UInt8.le_iff_toNat_le] at h
      rcases h with h | h
      · exact .inl h
      · exact .inr (.inl h)
    · exact .inr (.inr rfl)
  have hne : ∀ k : UInt8, (k.toNat < 65 ∨ (90 < k.toNat ∧ k.toNat < 95) ∨ 122 < k.toNat) → b ≠ k := by
    rintro k hk rfl
    omega
  refine ⟨?_, hne 10 (by decide), hne 13 (by decide), hne 35 (by decide), ?_⟩
  · simp [charIsSpace, hne 32 (by decide), hne 9 (by decide), hne 10 (by decide), hne 13 (by decide), hne 12 (by decide), hne 11 (by decide)]
  · intro fatal c t
    unfold lexSwitch
    rw [if_neg (hne _ (by decide)), if_neg (hne _ (by decide)), if_neg (hne _ (by decide)), if_neg (hne _ (by decide)),
      if_neg (hne _ (by decide)), if_neg (hne _ (by decide)), if_neg (hne _ (by decide)), if_neg (hne _ (by decide)),
      if_neg (hne _ (by decide)), if_neg (hne _ (by decide)), if_neg (hne _ (by decide)), if_neg (hne _ (by decide)),
      if_neg (hne _ (by decide)), if_neg (hne _ (by decide)), if_neg (hne _ (by decide)), if_neg (hne _ (by decide)),
      if_neg, if_neg (hne _ (by decide)), if_neg (hne _ (by decide)), if_pos h]
    simp [hne 43 (by decide), hne 37 (by decide), hne 94 (by decide), hne 126 (by decide), hne 33 (by decide), hne 60 (by decide), hne 62 (by decide), hne 124 (by decide)]

theorem isWord_ne {b : UInt8} (h : charIsAlphanumeric b = true ∨ b = 95) : isWord b = true ∧ b ≠ 10 := by
  refine ⟨by simpa [isWord] using h, ?_⟩
  rintro rfl
  exact absurd h (by decide)

/-- What comes behind a word: a blank, or the end. -/
def Behind (r : Bytes) : Prop := r = [0] ∨ ∃ b r', r = b :: r' ∧ (b = 32 ∨ b = 9)

/-- One turn over a gap and a word. -/
theorem turn_word {mem : Bytes} {fatal : Bool} {ms : Macros} {g x r : Bytes} {off : Nat} {toks : List Tok} (hg : Blank g)
    (hx : PlainWord ms x) (hr : Behind r) (hs : slice mem (off + g.length) x.length = x) :
    turn mem fatal ⟨⟨g ++ x ++ r, ⟨off, 1, off + 1⟩⟩, toks, ms⟩ =
      .ok (some ⟨⟨r, ⟨off + g.length + x.length, 1, off + g.length + x.length + 1⟩⟩, toks ++ [⟨off + g.length, x.length, .Identifier, 1, off + 1, 0⟩], ms⟩) := by
  obtain ⟨⟨a, v, rfl, ha, hv⟩, hk, hm⟩ := hx
  obtain ⟨hsp, h10, h13, h35, hsw⟩ := word_not_special ha
  obtain ⟨b, r', rfl, hb⟩ : ∃ b r', r = b :: r' ∧ (r' = [] ∨ isWord b = false) := by
    rcases hr with rfl | ⟨b, r', rfl, rfl | rfl⟩
    · exact ⟨_, _, rfl, .inl rfl⟩
    · exact ⟨_, _, rfl, .inr (by decide)⟩
    · exact ⟨_, _, rfl, .inr (by decide)⟩
  unfold turn
  have hfc : firstColumn ⟨g ++ a :: v ++ b :: r', ⟨off, 1, off + 1⟩⟩ = .ok (⟨g ++ a :: v ++ b :: r', ⟨off, 1, off + 1⟩⟩, none) := by
    unfold firstColumn
    simp only
    split
    · obtain ⟨y, z, hyz, h1, h2⟩ : ∃ y z, g ++ a :: v ++ b :: r' = y :: z ∧ y ≠ 13 ∧ y ≠ 10 := by
        cases g with
        | nil => exact ⟨_, _, rfl, h13, h10⟩
        | cons y g =>
          refine ⟨_, _, rfl, ?_⟩
          rcases hg y (by simp) with rfl | rfl <;> decide
      rw [hyz]
      simp [eatIf, Cur.peek, h1, h2, Res.ok_bind]
    · rfl
  have hws : skipWs ⟨g ++ a :: v ++ b :: r', ⟨off, 1, off + 1⟩⟩ =
      .ok ⟨a :: (v ++ b :: r'), ⟨off + g.length, 1, off + g.length + 1⟩⟩ := by
    unfold skipWs run
    have h := runL_exact (P := charIsSpace) g a (v ++ b :: r') off 1 (off + 1) (blank_space hg) (.inr hsp)
    rw [List.append_assoc, List.cons_append]
    simp only [h, Res.ok_bind]
    have : off + 1 + g.length = off + g.length + 1 := by omega
    rw [this]
  simp only [hfc, hws, Res.ok_bind]
  rw [if_neg (by simp [Cur.left]; omega)]
  have hpk : Cur.peek ⟨a :: (v ++ b :: r'), ⟨off + g.length, 1, off + g.length + 1⟩⟩ = .ok a := rfl
  simp only [hpk, Res.ok_bind]
  rw [if_neg h35, hsw]
  have hw : ∀ t, lexWord ⟨a :: (v ++ b :: r'), ⟨off + g.length, 1, off + g.length + 1⟩⟩ t =
      .ok (.token ⟨b :: r', ⟨off + g.length + (a :: v).length, 1, off + g.length + (a :: v).length + 1⟩⟩ { t with start := off + g.length, len := (a :: v).length }) := by
    intro t
    unfold lexWord
    have hmv : Cur.move ⟨a :: (v ++ b :: r'), ⟨off + g.length, 1, off + g.length + 1⟩⟩ =
        .ok ⟨v ++ b :: r', ⟨off + g.length + 1, 1, off + g.length + 1 + 1⟩⟩ := by
      simp [Cur.move, Pos.step, h10]
    simp only [hmv, Res.ok_bind, run]
    rw [runL_exact v b r' _ _ _ (fun y hy => isWord_ne (hv y hy)) hb]
    have e1 : off + g.length + 1 + v.length = off + g.length + (a :: v).length := by simp; omega
    have e2 : off + g.length + 1 + 1 + v.length = off + g.length + (a :: v).length + 1 := by simp; omega
    have e3 : 1 + v.length = (a :: v).length := by simp; omega
    simp only [Res.ok_bind, e1, e2, e3]
  rw [hw]
  simp only [Res.ok_bind]
  unfold finishToken foundToken
  rw [if_neg (by simp [Cur.tok])]
  simp only [hs, hk]
  unfold foundWord
  rw [if_neg (by decide), if_neg (by decide), if_neg (by decide)]
  have hleft : ∃ q, (if Cur.left ⟨b :: r', ⟨off + g.length + (a :: v).length, 1, off + g.length + (a :: v).length + 1⟩⟩ = 0 then Res.ok false
      else (Cur.peek ⟨b :: r', ⟨off + g.length + (a :: v).length, 1, off + g.length + (a :: v).length + 1⟩⟩).bind fun b => Res.ok (b == 40)) = .ok q := by
    split
    · exact ⟨_, rfl⟩
    · exact ⟨_, rfl⟩
  obtain ⟨q, hq⟩ := hleft
  rw [hq]
  simp only [Res.ok_bind, hm]
  have hfl : wordFlags .Invalid 0 = 0 := by decide
  simp only [Cur.tok, hfl]
  rw [if_neg (by decide)]
  simp only [Res.ok_bind]

theorem loop_words {mem : Bytes} {fatal : Bool} {ms : Macros} : ∀ (ps : List (Bytes × Bytes)) (off : Nat) (toks : List Tok) (fuel : Nat) (w : Bytes),
    mem = w ++ (lineText ps ++ [0]) → off = w.length → (∀ p ∈ ps, Blank p.1 ∧ p.1 ≠ [] ∧ PlainWord ms p.2) → ps.length < fuel →
    loop mem fatal fuel ⟨⟨lineText ps ++ [0], ⟨off, 1, off + 1⟩⟩, toks, ms⟩ =
      .ok (some ⟨⟨[0], ⟨off + (lineText ps).length, 1, off + (lineText ps).length + 1⟩⟩, toks ++ wordToks off ps, ms⟩)
  | [], off, toks, fuel, w, _, _, _, _ => by
    cases fuel <;> simp [loop, lineText, wordToks, Cur.left]
  | (g, x) :: ps, off, toks, fuel, w, hm, ho, hp, hf => by
    cases fuel with
    | zero => simp at hf
    | succ fuel =>
      obtain ⟨hg, hgne, hx⟩ := hp (g, x) (by simp)
      simp only at hg hgne hx
      have hb : Behind (lineText ps ++ [0]) := by
        cases ps with
        | nil => exact .inl rfl
        | cons p ps =>
          obtain ⟨g', x'⟩ := p
          obtain ⟨hg', hgne', _⟩ := hp (g', x') (by simp)
          obtain ⟨b, r, hbr⟩ := List.exists_cons_of_ne_nil hgne'
          simp only at hbr hg'
          subst hbr
          exact .inr ⟨b, r ++ x' ++ lineText ps ++ [0], by simp [lineText], hg' b (by simp)⟩
      have hs : slice mem (off + g.length) x.length = x := by
        rw [hm, slice, ho, lineText]
        have : w ++ (g ++ x ++ lineText ps ++ [0]) = (w ++ g) ++ (x ++ (lineText ps ++ [0])) := by simp
        rw [this, ← List.length_append, List.drop_left, List.take_left]
      have ht := turn_word (fatal := fatal) (toks := toks) hg hx hb hs
      have e : lineText ((g, x) :: ps) ++ [0] = g ++ x ++ (lineText ps ++ [0]) := by simp [lineText]
      rw [e]
      unfold loop
      rw [if_neg]
      · simp only [ht, Res.ok_bind]
        rw [loop_words ps (off + g.length + x.length) _ fuel (w ++ g ++ x) (by rw [hm, e]; simp) (by rw [ho]; simp; omega)
          (fun p hp' => hp p (by simp [hp'])) (by simp at hf; omega)]
        simp only [lineText, wordToks, List.length_append, List.append_assoc, List.cons_append, List.nil_append]
        simp only [Nat.add_assoc]
      · obtain ⟨a, v, rfl, _⟩ := hx.1
        simp [Cur.left]
        omega

/-- C27, C28 **(exactly these tokens)**: a line that consists of identifiers (neither keywords nor macros), with blanks and tabs
between them, gives one identifier token for each, with exactly its text; the recorded column is the one behind the previous word. -/
theorem C27_words (fatal : Bool) (ms : Macros) (x : Bytes) (ps : List (Bytes × Bytes)) (hx : PlainWord ms x)
    (hp : ∀ p ∈ ps, Blank p.1 ∧ p.1 ≠ [] ∧ PlainWord ms p.2) :
    lex fatal ms (x ++ lineText ps) = .ok (some (⟨0, x.length, .Identifier, 1, 1, 0⟩ :: wordToks x.length ps, ms)) := by
  obtain ⟨a, v, hav, ha, hv⟩ := hx.1
  have hsp := (word_not_special ha).1
  have hb : Behind (lineText ps ++ [0]) := by
    cases ps with
    | nil => exact .inl rfl
    | cons p ps =>
      obtain ⟨g', x'⟩ := p
      obtain ⟨hg', hgne', _⟩ := hp (g', x') (by simp)
      obtain ⟨b, r, hbr⟩ := List.exists_cons_of_ne_nil hgne'
      simp only at hbr hg'
      subst hbr
      exact .inr ⟨b, r ++ x' ++ lineText ps ++ [0], by simp [lineText], hg' b (by simp)⟩
  have hlen : ∀ ps : List (Bytes × Bytes), (∀ p ∈ ps, Blank p.1 ∧ p.1 ≠ [] ∧ PlainWord ms p.2) → ps.length ≤ (lineText ps).length := by
    intro ps
    induction ps with
    | nil => simp
    | cons p ps ih =>
      intro h
      have h1 := ih fun p hp => h p (by simp [hp])
      have h2 := List.length_pos_iff.2 (h p (by simp)).2.1
      obtain ⟨g, x⟩ := p
      simp [lineText] at h2 ⊢
      omega
  have ht := turn_word (mem := x ++ lineText ps ++ [0]) (fatal := fatal) (toks := []) (g := []) (off := 0) (by intro b hb; cases hb) hx hb
    (by simp [slice])
  unfold lex
  have hws : skipWs ⟨x ++ lineText ps ++ [0], ⟨0, 1, 1⟩⟩ = .ok ⟨x ++ lineText ps ++ [0], ⟨0, 1, 1⟩⟩ := by
    unfold skipWs run
    obtain ⟨y, z, hyz⟩ : ∃ y z, v ++ (lineText ps ++ [0]) = y :: z := by
      cases v <;> cases ps <;> (try exact ⟨_, _, rfl⟩)
      rename_i p ps
      cases hq : lineText (p :: ps) <;> exact ⟨_, _, rfl⟩
    have h := runL_exact (P := charIsSpace) [] a (v ++ (lineText ps ++ [0])) 0 1 1 (by simp) (.inr hsp)
    have e : x ++ lineText ps ++ [0] = [] ++ a :: (v ++ (lineText ps ++ [0])) := by rw [hav]; simp
    rw [e]
    simp only [h, Res.ok_bind]
    rfl
  have hx0 : 0 < x.length := by rw [hav]; simp
  have hl : ¬ Cur.left ⟨x ++ lineText ps ++ [0], ⟨0, 1, 1⟩⟩ ≤ 0 := by simp [Cur.left]; omega
  simp only [hws, Res.ok_bind, if_neg hl]
  unfold loop
  rw [if_neg (by simp only [Cur.left] at hl ⊢; omega)]
  rw [List.append_assoc] at ht ⊢
  simp only [List.nil_append, List.length_nil, Nat.add_zero, Nat.zero_add] at ht
  have h' := hlen ps hp
  simp only [ht, Res.ok_bind]
  rw [loop_words ps x.length _ (x ++ lineText ps).length.succ x rfl rfl hp (by simp; omega)]
  simp

/-- C28 fails: a word behind `n` blanks is recorded `n` columns too early. -/
theorem C28_blanks_not_counted (fatal : Bool) (ms : Macros) (x y : Bytes) (n : Nat) (hx : PlainWord ms x) (hy : PlainWord ms y) :
    lex fatal ms (x ++ (List.replicate (n + 1) 32 ++ y)) = .ok (some ([⟨0, x.length, .Identifier, 1, 1, 0⟩,
      ⟨x.length + (n + 1), y.length, .Identifier, 1, x.length + 1, 0⟩], ms)) := by
  have h := C27_words fatal ms x [(List.replicate (n + 1) 32, y)] hx (by
    intro p hp
    simp only [List.mem_cons, List.not_mem_nil, or_false] at hp
    subst hp
    exact ⟨fun b hb => .inl (List.eq_of_mem_replicate hb), by simp, hy⟩)
  simpa [lineText, wordToks] using h

/-- C28: behind a newline and indentation, the end of the line before is recorded (the identifier `b` is at line 2, column 3). -/
theorem C28_line_before : (lex true [] b!"a\n  b").bind (fun r => .ok (r.map fun x => x.1.map fun t => (t.start, t.line, t.col))) =
    .ok (some [(0, 1, 1), (4, 1, 2)]) := by decide +kernel

/-- The hypotheses are met. -/
example : PlainWord [] b!"foo" ∧ PlainWord [] b!"bar_2" :=
  ⟨⟨⟨102, b!"oo", rfl, .inl (by decide), by decide⟩, by decide +kernel, rfl⟩, ⟨⟨98, b!"ar_2", rfl, .inl (by decide), by decide⟩, by decide +kernel, rfl⟩⟩

end Verif.Lex
