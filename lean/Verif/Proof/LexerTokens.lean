import Verif.Proof.Lexer
/-! # Lexer: the tokens -/
namespace Verif.Lex

theorem Tiled.whites {w : Bytes} {ts : List Tok} (h : Tiled w ts) : ∀ {v : Bytes}, (∀ b ∈ v, charIsSpace b = true) → Tiled (w ++ v) ts := by
  intro v
  induction v generalizing w with
  | nil => intro _; simpa using h
  | cons b v ih =>
    intro hv
    have := ih (h.white (hv b (by simp))) (fun x hx => hv x (by simp [hx]))
    simpa using this

/-- Tiled, unless there may be junk. -/
def T (J : Prop) (w : Bytes) (ts : List Tok) : Prop := J ∨ Tiled w ts

theorem T.whites {J : Prop} {w v : Bytes} {ts : List Tok} (h : T J w ts) (hv : J ∨ ∀ b ∈ v, charIsSpace b = true) : T J (w ++ v) ts := by
  rcases h with h | h
  · exact .inl h
  · rcases hv with hv | hv
    · exact .inl hv
    · exact .inr (h.whites hv)

theorem T.tok {J : Prop} {w g x : Bytes} {ts : List Tok} {t : Tok} (h : T J w ts) (hg : Gap t g) (h1 : t.start = w.length + g.length)
    (h2 : t.len = x.length) (hx : Lexeme t x) (hp : Placed (w ++ g) t) : T J (w ++ g ++ x) (ts ++ [t]) := by
  rcases h with h | h
  · exact .inl h
  · exact .inr (h.tok hg h1 h2 hx hp)

/-- A token without gap. -/
theorem T.tok0 {J : Prop} {w x : Bytes} {ts : List Tok} {t : Tok} (h : T J w ts) (h1 : t.start = w.length)
    (h2 : t.len = x.length) (hx : Lexeme t x) (hp : Placed w t) : T J (w ++ x) (ts ++ [t]) := by
  have := T.tok (g := []) (x := x) h (by intro b hb; cases hb) (by simpa using h1) h2 hx (by simpa using hp)
  simpa using this

theorem placed_here {mem : Bytes} {c : Cur} {w : Bytes} (h : At mem c w) {t : Tok} (h1 : t.line = c.pos.line) (h2 : t.col = c.pos.col) :
    Placed w t := ⟨w, [], by simp, by rw [h1, h.2], by rw [h2, h.2], by simp⟩

theorem off_eq {mem : Bytes} {c : Cur} {w : Bytes} (h : At mem c w) : c.pos.off = w.length := by rw [h.2]

theorem slice_eq {mem : Bytes} {c c' : Cur} {w v : Bytes} (h : At mem c w) (h' : At mem c' (w ++ v)) :
    slice mem c.pos.off v.length = v := by
  rw [off_eq h, slice, h'.1]
  simp

/-- A recorded place with only whitespace behind it. -/
def Spot (w : Bytes) (l k : Nat) : Prop := ∃ q r, w = q ++ r ∧ (∀ b ∈ r, charIsSpace b = true) ∧ l = lineOf q ∧ k = colOf q

theorem Spot.placed {w : Bytes} {t : Tok} (h : Spot w t.line t.col) : Placed w t := by
  obtain ⟨q, r, h1, h2, h3, h4⟩ := h
  exact ⟨q, r, h1, h3, h4, fun b hb => .inl (h2 b hb)⟩

theorem isWord_all {v : Bytes} (h : ∀ b ∈ v, isWord b = true) : ∀ b ∈ v, charIsAlphanumeric b = true ∨ b = 95 := by
  intro b hb
  have := h b hb
  simpa [isWord] using this

section
variable {content mem : Bytes} {fatal : Bool} {u J : Prop}

theorem W_fail {α : Type} {P : Option α → Prop} (h : P none) : W u (fail fatal) P := by
  unfold fail
  split
  · trivial
  · exact h

theorem W_paramLoop (hm : mem = content ++ [0]) : ∀ (fuel : Nat) (c : Cur) (toks : List Tok) (w g : Bytes), At mem c (w ++ g) → N u c →
    T J w toks → (∀ b ∈ g, charIsSpace b = true ∨ b = 92) → c.rest.length < fuel →
    W u (paramLoop fatal fuel c toks) fun r => ∀ y, r = some y → ∃ w' g', At mem y.1 (w' ++ g') ∧ N u y.1 ∧ T J w' y.2 ∧
      (∀ b ∈ g', charIsSpace b = true ∨ b = 92) ∧ (w ++ g).length ≤ (w' ++ g').length
  | fuel, c, toks, w, g, h, hn, ht, hg, hf => by
    unfold paramLoop
    split
    · rintro y ⟨⟩
      exact ⟨w, g, h, hn, ht, hg, Nat.le_refl _⟩
    · rename_i hl
      refine W.bind (W_peek hn) ?_
      rintro b ⟨r, hr⟩
      split
      · rintro y ⟨⟩
        exact ⟨w, g, h, hn, ht, hg, Nat.le_refl _⟩
      · cases fuel with
        | zero => omega
        | succ fuel =>
          refine W.bind (W_skipWs h hn) ?_
          rintro c1 ⟨v, a1, hv, b1, r1, hr1, _⟩
          have hlen1 := h.lt a1
          have hgv : ∀ b ∈ g ++ v, charIsSpace b = true ∨ b = 92 := by
            intro b hb
            rcases List.mem_append.1 hb with hb | hb
            · exact hg b hb
            · exact .inl (hv b hb)
          split
          · rename_i hdots
            obtain ⟨hd1, hd2⟩ := hdots
            obtain ⟨r4, hr4⟩ : ∃ r4, c1.rest = 46 :: 46 :: 46 :: r4 := by
              refine ⟨c1.rest.drop 3, ?_⟩
              conv => lhs; rw [← List.take_append_drop 3 c1.rest, hd2]
              rfl
            have hr4ne : r4 ≠ [] := by
              rintro rfl
              simp [Cur.left, hr4] at hd1
            refine W.bind (W_move' a1 hr4) ?_
            rintro c2 ⟨e2, a2⟩
            refine W.bind (W_move' a2 e2) ?_
            rintro c3 ⟨e3, a3⟩
            refine W.bind (W_move' a3 e3) ?_
            rintro c4 ⟨e4, a4⟩
            refine W.bind (W_skipWs a4 (fun he => absurd (e4 ▸ he) hr4ne)) ?_
            rintro c5 ⟨v5, a5, hv5, b5, r5, hr5, _⟩
            refine W.bind (W_slashes hm _ c5 _ a5 (N_of hr5) (by omega)) ?_
            rintro c6 ⟨v6, a6, hv6, hne6⟩
            refine W.bind (W_peek fun he => absurd he hne6) ?_
            rintro b7 ⟨r7, hr7⟩
            split
            · exact W_fail (by rintro y ⟨⟩)
            · rintro y ⟨⟩
              refine ⟨w ++ (g ++ v) ++ [46, 46, 46], v5 ++ v6, by simpa using a6, N_of hr7, ?_, ?_, by simp⟩
              · refine T.tok ht ?_ (by simp [Cur.tok, off_eq a1]) rfl (.inr (.inl rfl)) ?_
                · intro b hb
                  rcases hgv b hb with h | h
                  · exact .inl h
                  · exact .inr ⟨h, .inl rfl⟩
                · exact placed_here (by simpa using a1) rfl rfl
              · intro b hb
                rcases List.mem_append.1 hb with hb | hb
                · exact .inl (hv5 b hb)
                · exact hv6 b hb
          · refine W.bind (W_peek (N_of hr1)) ?_
            rintro b2 ⟨r2, hr2⟩
            split
            · rename_i hb2
              subst hb2
              refine W.bind (W_move' a1 hr2) ?_
              rintro c3 ⟨e3, a3⟩
              refine W.bind (W_skipWs a3 (fun he => absurd (e3 ▸ he) (a1.ne hm hr2 (by decide)))) ?_
              rintro c4 ⟨v4, a4, hv4, b4, r4, hr4, _⟩
              have hlen := a3.lt a4
              have a4' : At mem c4 (w ++ (g ++ v ++ [92] ++ v4)) := by simpa using a4
              refine W.mono (W_paramLoop hm fuel c4 toks w _ a4' (N_of hr4) ht ?_ ?_) ?_
              · intro b hb
                simp only [List.mem_append, List.mem_cons, List.not_mem_nil, or_false] at hb
                rcases hb with ((hb | hb) | rfl) | hb
                · exact hg b hb
                · exact .inl (hv b hb)
                · exact .inr rfl
                · exact .inl (hv4 b hb)
              · rw [hr2] at hlen1; rw [e3] at hlen; simp at hlen1; omega
              · rintro r hr y rfl
                obtain ⟨w', g', q1, q2, q3, q4, q5⟩ := hr y rfl
                exact ⟨w', g', q1, q2, q3, q4, by simp at q5 ⊢; omega⟩
            · split
              · rename_i hb2 hal
                have hb0 : b2 ≠ 0 := by
                  rintro rfl
                  rcases hal with h | h
                  · exact absurd h (by decide)
                  · exact absurd h (by decide)
                refine W.bind (W_move' a1 hr2) ?_
                rintro c3 ⟨e3, a3⟩
                refine W.bind (W_run isWord a3 (fun he => absurd (e3 ▸ he) (a1.ne hm hr2 hb0))) ?_
                rintro x ⟨v4, a4, hw4, hx2, b4, r4, hr4, _⟩
                have hw4 := isWord_all hw4
                refine W.bind (W_skipWs a4 (N_of hr4)) ?_
                rintro c5 ⟨v5, a5, hv5, b5, r5, hr5, _⟩
                have hT : T J (w ++ (g ++ v) ++ (b2 :: v4)) (toks ++ [{ c1.tok 1 .Preprocess_Define_Param fPreprocess with len := 1 + x.2 }]) := by
                  refine T.tok ht ?_ (by simp [Cur.tok, off_eq a1]) (by simp [hx2]; omega) (.inr (.inr ⟨b2, v4, rfl, hal, hw4⟩)) ?_
                  · intro b hb
                    rcases hgv b hb with h | h
                    · exact .inl h
                    · exact .inr ⟨h, .inl rfl⟩
                  · exact placed_here (by simpa using a1) rfl rfl
                have a5' : At mem c5 (w ++ (g ++ v) ++ (b2 :: v4) ++ v5) := by simpa using a5
                refine W.bind (W_peek (N_of hr5)) ?_
                rintro b6 ⟨r6, hr6⟩
                split
                · rintro y ⟨⟩
                  exact ⟨_, v5, a5', N_of hr6, hT, fun b hb => .inl (hv5 b hb), by simp⟩
                · split
                  · exact W_fail (by rintro y ⟨⟩)
                  · rename_i hb6
                    have hb6 : b6 = 44 := by simpa using hb6
                    subst hb6
                    refine W.bind (W_move' a5' hr6) ?_
                    rintro c7 ⟨e7, a7⟩
                    have hT2 : T J (w ++ (g ++ v) ++ (b2 :: v4) ++ v5 ++ [44]) (toks ++ [{ c1.tok 1 .Preprocess_Define_Param fPreprocess with len := 1 + x.2 }] ++ [c5.tok 1 .Comma fPreprocess]) := by
                      refine T.tok hT (fun b hb => .inl (hv5 b hb)) (by simp [Cur.tok, off_eq a5']; omega) rfl (.inr rfl) ?_
                      exact placed_here a5' rfl rfl
                    have hlen := h.lt (v := v ++ b2 :: (v4 ++ (v5 ++ [44]))) (c' := c7) (by simpa using a7)
                    refine W.mono (W_paramLoop hm fuel c7 _ _ [] (by simpa using a7) (fun he => absurd (e7 ▸ he) (a5'.ne hm hr6 (by decide))) hT2 (by simp) (by simp at hlen; omega)) ?_
                    rintro r hr y rfl
                    obtain ⟨w', g', q1, q2, q3, q4, q5⟩ := hr y rfl
                    exact ⟨w', g', q1, q2, q3, q4, by simp at q5 ⊢; omega⟩
              · exact W_fail (by rintro y ⟨⟩)
  termination_by fuel => fuel

theorem W_lexDefine (hm : mem = content ++ [0]) {c : Cur} {toks : List Tok} {ms : Macros} {w : Bytes} (h : At mem c w) (hn : N u c)
    (hd : ∀ b, c.rest = [b] → u) (ht : T J w toks) :
    W u (lexDefine mem fatal c toks ms) fun r => ∀ y, r = some y → ∃ w', At mem y.1 w' ∧ N u y.1 ∧ T J w' y.2.1 ∧ w.length ≤ w'.length := by
  unfold lexDefine
  refine W.bind (W_move h hn) ?_
  rintro c1 ⟨b, e1, a1⟩
  have n1 : N u c1 := fun he => hd b (by rw [e1, he])
  refine W.bind (W_run isWord a1 n1) ?_
  rintro x ⟨v, a2, hwv, hx2, b2, r2, hr2, _⟩
  have a2' : At mem x.1 (w ++ (b :: v)) := by simpa using a2
  have hT : T J (w ++ (b :: v)) (toks ++ [{ c.tok 1 .Identifier fPreprocess with len := 1 + x.2 }]) := by
    refine T.tok0 ht (by simp [Cur.tok, off_eq h]) (by simp [hx2]; omega) (.inr (.inr ⟨rfl, b, v, rfl, isWord_all hwv⟩)) (placed_here h rfl rfl)
  simp only
  split
  · rintro y ⟨⟩
    exact ⟨_, a2', N_of hr2, hT, by simp⟩
  · refine W.bind (W_peek (N_of hr2)) ?_
    rintro b3 ⟨r3, hr3⟩
    split
    · rename_i hb3
      subst hb3
      refine W.bind (W_move' a2' hr3) ?_
      rintro c4 ⟨e4, a4⟩
      have hT4 := T.tok0 (x := [40]) (t := x.1.tok 1 .Paren_Open fPreprocess) hT (by simp [Cur.tok, off_eq a2']) rfl (.inr rfl) (placed_here a2' rfl rfl)
      refine W.bind (W_paramLoop hm _ c4 _ _ [] (by simpa using a4) (fun he => absurd (e4 ▸ he) (a2'.ne hm hr3 (by decide))) hT4 (by simp) (by omega)) ?_
      intro r hr
      cases r with
      | none => rintro y ⟨⟩
      | some y =>
        obtain ⟨w', g', q1, q2, q3, q4, q5⟩ := hr y rfl
        refine W.bind (W_peek q2) ?_
        rintro b6 ⟨r6, hr6⟩
        split
        · exact W_fail (by rintro y ⟨⟩)
        · rename_i hb6
          have hb6 : b6 = 41 := by simpa using hb6
          subst hb6
          refine W.bind (W_move' q1 hr6) ?_
          rintro c7 ⟨e7, a7⟩
          rintro z ⟨⟩
          refine ⟨_, a7, fun he => absurd (e7 ▸ he) (q1.ne hm hr6 (by decide)), ?_, by simp at q5 ⊢; omega⟩
          refine T.tok q3 ?_ (by simp [Cur.tok, off_eq q1]) rfl (.inr rfl) (placed_here q1 rfl rfl)
          intro b hb
          rcases q4 b hb with h | h
          · exact .inl h
          · exact .inr ⟨h, .inr rfl⟩
    · rintro y ⟨⟩
      exact ⟨_, a2', N_of hr2, hT, by simp⟩

theorem W_lexDirective (hc : Ctx content mem fatal u J) {c : Cur} {tok : Tok} {toks : List Tok} {ms : Macros} {w r : Bytes}
    (h : At mem c w) (hr : c.rest = 35 :: r) (ht : T J w toks) (hs : Spot w tok.line tok.col) :
    W u (lexDirective mem fatal c tok toks ms) fun z => ∀ y, z = some y → ∃ w', At mem y.1 w' ∧ N u y.1 ∧ T J w' y.2.1 ∧ w.length < w'.length := by
  have hm := hc.hm
  unfold lexDirective
  refine W.bind (W_move' h hr) ?_
  rintro c1 ⟨e1, a1⟩
  have n1 : N u c1 := fun he => absurd (e1 ▸ he) (h.ne hm hr (by decide))
  refine W.bind (W_skipWs a1 n1) ?_
  rintro c2 ⟨s, a2, hsp, b2, r2, hr2, _⟩
  refine W.bind (W_run _ a2 (N_of hr2)) ?_
  rintro x ⟨v, a3, _, hx2, b3, r3, hr3, _⟩
  have hT1 : T J (w ++ [35]) (toks ++ [c.tok 1 .Preprocess_Hash fPreprocess]) :=
    T.tok0 ht (by simp [Cur.tok, off_eq h]) rfl (.inr rfl) (placed_here h rfl rfl)
  have hslice : slice mem c2.pos.off x.2 = v := by rw [hx2]; exact slice_eq a2 a3
  have hpl : ∀ t : Tok, t.line = tok.line → t.col = tok.col → ord .Preprocess_Define ≤ ord t.type ∧ ord t.type ≤ ord .Preprocess_Pragma →
      Placed (w ++ [35] ++ s) t := by
    intro t h1 h2 h3
    obtain ⟨q, p, g1, g2, g3, g4⟩ := hs
    refine ⟨q, p ++ [35] ++ s, by simp [g1], by rw [h1, g3], by rw [h2, g4], ?_⟩
    intro b hb
    simp only [List.mem_append, List.mem_cons, List.not_mem_nil, or_false] at hb
    rcases hb with (hb | rfl) | hb
    · exact .inl (g2 b hb)
    · exact .inr ⟨rfl, h3⟩
    · exact .inl (hsp b hb)
  simp only [hslice]
  split
  · refine W.bind (W_unsupLoop hc _ false false x.1 _ a3 (N_of hr3) (by omega)) ?_
    rintro y ⟨v4, a4, n4, h4⟩
    rintro z ⟨⟩
    refine ⟨w ++ [35] ++ (s ++ v ++ v4), by simpa using a4, n4, ?_, by simp⟩
    rcases hT1 with hj | hT1
    · exact .inl hj
    · refine .inr (Tiled.unsupported hT1 rfl (off_eq h) rfl (off_eq h) ?_ (Spot.placed hs))
      simp [off_eq h, off_eq a2, hx2, h4]; omega
  · rename_i hrange
    have hrange : ord .Preprocess_Define ≤ ord (strToTokType v) ∧ ord (strToTokType v) ≤ ord .Preprocess_Pragma := by
      simpa using hrange
    have hinv : strToTokType v ≠ .Invalid := by
      intro he
      rw [he] at hrange
      exact absurd hrange (by decide)
    have hTt : ∀ f, T J (w ++ [35] ++ s ++ v) (toks ++ [c.tok 1 .Preprocess_Hash fPreprocess] ++
        [{ tok with start := c2.pos.off, len := x.2, type := strToTokType v, flags := f }]) := fun f =>
      T.tok hT1 (fun b hb => .inl (hsp b hb)) (by simp [off_eq a2]; omega) hx2 (.inl ⟨hinv, rfl⟩) (hpl _ rfl rfl hrange)
    split
    · refine W.bind (W_endLine hc a3 (N_of hr3)) ?_
      rintro c4 ⟨v4, a4, n4, h4⟩
      rintro z ⟨⟩
      exact ⟨_, a4, n4, T.whites (hTt _) h4, by simp⟩
    · generalize (if ord .Preprocess_If ≤ ord (strToTokType v) ∧ ord (strToTokType v) ≤ ord .Preprocess_ElIf then tok.flags ||| fPreprocessCond else tok.flags) = fl
      refine W.bind (W_skipWs a3 (N_of hr3)) ?_
      rintro c4 ⟨s', a4, hs', b4, r4, hr4, _⟩
      have hT4 := T.whites (v := s') (hTt fl) (.inr hs')
      refine W.bind (P := fun z => ∀ y, z = some y → ∃ w', At mem y.1 w' ∧ N u y.1 ∧ T J w' y.2.1 ∧
        (w ++ [35] ++ s ++ v ++ s').length ≤ w'.length ∧ (strToTokType v ≠ .Preprocess_Define → y.1 = c4 ∧ w' = w ++ [35] ++ s ++ v ++ s')) ?_ ?_
      · split
        · rename_i hdef
          refine W.mono (W_lexDefine hm a4 (N_of hr4) ?_ hT4) ?_
          · intro b hb
            rcases hc.hu with hu | hsafe
            · exact hu
            · exfalso
              obtain ⟨q, g1, g2⟩ := a4.split hm (by simp [hb])
              rw [hb] at g1
              have : q = [] := by
                have := congrArg List.length g1
                simp at this
                exact this
              subst this
              obtain ⟨b', hb1, hb2⟩ := hsafe.defines w s v s' (by rw [g2]; simp) hsp hdef
              rw [hs' b' hb1] at hb2
              cases hb2
          · rintro r hr y rfl
            obtain ⟨w', q1, q2, q3, q4⟩ := hr y rfl
            exact ⟨w', q1, q2, q3, q4, fun hd => absurd hdef hd⟩
        · rintro y ⟨⟩
          exact ⟨_, a4, N_of hr4, hT4, Nat.le_refl _, fun _ => ⟨rfl, rfl⟩⟩
      · intro z hz
        cases z with
        | none => rintro y ⟨⟩
        | some y =>
          obtain ⟨w5, a5, n5, hT5, hle, hsame⟩ := hz y rfl
          obtain ⟨c5, toks5, ms5⟩ := y
          simp only at a5 n5 hT5 hsame ⊢
          split
          · rename_i hinc
            obtain ⟨rfl, rfl⟩ := hsame (by rw [hinc]; decide)
            refine W.bind (W_peek n5) ?_
            rintro o ⟨r6, hr6⟩
            split
            · exact W_fail (by rintro y ⟨⟩)
            · rename_i ho
              have ho : o = 34 ∨ o = 60 := by
                by_cases h34 : o = 34
                · exact .inl h34
                · exact .inr (by simpa [h34] using ho)
              have ho0 : o ≠ 0 := by rcases ho with rfl | rfl <;> decide
              refine W.bind (W_move' a5 hr6) ?_
              rintro c6 ⟨e6, a6⟩
              refine W.bind (W_run _ a6 (fun he => absurd (e6 ▸ he) (a5.ne hm hr6 ho0))) ?_
              rintro y ⟨v7, a7, hv7, hy2, b7, r7, hr7, hstop⟩
              refine W.bind (W_move' a7 hr7) ?_
              rintro c8 ⟨e8, a8⟩
              have n8 : N u c8 := by
                intro he
                rcases hc.hu with hu | hsafe
                · exact hu
                · exfalso
                  obtain ⟨q, g1, g2⟩ := a7.split hm (by simp [hr7])
                  rw [hr7, ← e8, he] at g1
                  have : q = [] := by
                    have := congrArg List.length g1
                    simp at this
                    exact this
                  subst this
                  obtain ⟨e, he1, he2⟩ := hsafe.includes w s v s' o v7 (by rw [g2]; simp) hsp hs' hinc ho
                  have := hv7 e he1
                  rcases he2 with rfl | rfl <;> simp at this
              have hT8 : T J (w ++ [35] ++ s ++ v ++ s' ++ (o :: (v7 ++ [b7]))) (toks5 ++ [{ c5.tok 0 .String fPreprocess with len := 1 + y.2 + 1 }]) :=
                T.tok0 hT5 (by simp [Cur.tok, off_eq a5]) (by simp [hy2]; omega) (.inr ⟨v7 ++ [b7], ho.imp (by rintro rfl; rfl) (by rintro rfl; rfl)⟩) (placed_here a5 rfl rfl)
              have a8' : At mem c8 (w ++ [35] ++ s ++ v ++ s' ++ (o :: (v7 ++ [b7]))) := by simpa using a8
              refine W.bind (W_peek n8) ?_
              rintro b9 ⟨r9, hr9⟩
              split
              · rename_i hb9
                subst hb9
                have hne9 := a8'.ne hm hr9 (by decide)
                refine W.bind (W_peek1 ?_) ?_
                · intro hno
                  obtain ⟨b10, r10, rfl⟩ := List.exists_cons_of_ne_nil hne9
                  exact absurd hr9 (hno _ _ _)
                · rintro b10 ⟨_, r10, hr10⟩
                  have : r9 = b10 :: r10 := by rw [hr9] at hr10; injection hr10
                  subst this
                  split
                  · rename_i hb10
                    subst hb10
                    refine W.bind (W_move' a8' hr9) ?_
                    rintro c10 ⟨e10, a10⟩
                    refine W.bind (W_move' a10 e10) ?_
                    rintro c11 ⟨e11, a11⟩
                    rintro z ⟨⟩
                    refine ⟨_, a11, fun he => absurd (e11 ▸ he) (a10.ne hm e10 (by decide)), ?_, by simp⟩
                    exact T.whites (v := [10]) (T.whites (v := [13]) hT8 (.inr (by decide))) (.inr (by decide))
                  · rintro z ⟨⟩
                    exact ⟨_, a8', n8, hT8, by simp⟩
              · split
                · rename_i hb9
                  subst hb9
                  refine W.bind (W_move' a8' hr9) ?_
                  rintro c10 ⟨e10, a10⟩
                  rintro z ⟨⟩
                  exact ⟨_, a10, fun he => absurd (e10 ▸ he) (a8'.ne hm hr9 (by decide)), T.whites (v := [10]) hT8 (.inr (by decide)), by simp⟩
                · rintro z ⟨⟩
                  exact ⟨_, a8', n8, hT8, by simp⟩
          · refine W.bind (W_contentLoop hm _ false false c5 _ a5 n5 (by omega)) ?_
            intro z hz
            cases z with
            | none => rintro y ⟨⟩
            | some y =>
              obtain ⟨v6, a6, n6, h6⟩ := hz y rfl
              rintro _ ⟨⟩
              refine ⟨_, a6, n6, T.tok0 hT5 (by simp [Cur.tok, off_eq a5]) h6 (.inr trivial) (placed_here a5 rfl rfl), ?_⟩
              simp at hle ⊢
              omega

theorem W_newlineAfter (hc : Ctx content mem fatal u J) {c : Cur} {toks : List Tok} {w : Bytes} (h : At mem c w) (hn : N u c)
    (ht : T J w toks) :
    W u (newlineAfter c toks) fun y => ∃ w', At mem y.1 w' ∧ N u y.1 ∧ T J w' y.2 ∧ w.length ≤ w'.length := by
  have hm := hc.hm
  unfold newlineAfter
  refine W.bind (W_eatIf 13 h hn) ?_
  rintro x ⟨v, a1, hv, hsp, hcase⟩
  have hx : N u x.1 := by
    rcases hcase with ⟨_, he, _⟩ | rfl
    · rw [he]; exact hn
    · exact fun he => absurd he (h.ne hm (b := 13) (r := x.1.rest) (by simpa using hsp) (by decide))
  refine W.bind (W_peek hx) ?_
  rintro b ⟨r, hr⟩
  split
  · rename_i hb
    subst hb
    refine W.bind (W_move' a1 hr) ?_
    rintro c2 ⟨e2, a2⟩
    refine ⟨w ++ (v ++ [10]), by simpa using a2, fun he => absurd (e2 ▸ he) (a1.ne hm hr (by decide)), ?_, by simp⟩
    refine T.tok0 ht (by simp [Cur.tok, off_eq h]) (by simp [hv]) (.inr ?_) (placed_here h rfl rfl)
    rcases hcase with ⟨rfl, _, _⟩ | rfl
    · exact .inl rfl
    · exact .inr rfl
  · refine ⟨_, a1, hx, T.whites ht (.inr ?_), by simp⟩
    rcases hcase with ⟨rfl, _, _⟩ | rfl <;> decide

end

end Verif.Lex
