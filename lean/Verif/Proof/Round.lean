import Verif.Proof.Layout
import Verif.Props.RoundSpec
/-!
# C59: pieces of code, and their tokens
-/
namespace Verif.Round
open Verif.Lex (Tok Pos Macros Piece Reads CommentText Spaces NotNext Lexes toksAt)
open Verif.Parse (TokIs Spans UpTo)

@[simp] theorem written_nil : written [] = [] := rfl
@[simp] theorem written_cons {q : Piece} {l : List Piece} : written (q :: l) = q.all ++ written l := rfl
@[simp] theorem written_append {l k : List Piece} : written (l ++ k) = written l ++ written k := by simp [written]

@[simp] theorem lineStart_nil {b : Bool} : lineStart b [] = b := rfl

theorem lineStart_append {b : Bool} {u v : Bytes} : lineStart b (u ++ v) = lineStart (lineStart b u) v := by
  unfold lineStart
  rw [List.getLast?_append]
  cases v.getLast? <;> rfl

theorem lineStart_of {b : Bool} {u : Bytes} {x : UInt8} (h : u.getLast? = some x) : lineStart b u = (x == 10) := by
  unfold lineStart
  rw [h]

/-- Pieces one after the other. -/
theorem sits_append {ms : Macros} {l k : List Piece} : ∀ {b : Bool} {r : Bytes}, Sits ms b (l ++ k) r ↔ Sits ms b l (written k ++ r) ∧ Sits ms (lineStart b (written l)) k r := by
  induction l with
  | nil => intro b r; simp [Sits]
  | cons q l ih =>
    intro b r
    rw [List.cons_append, Sits, Sits, ih, written_cons, lineStart_append, written_append, List.append_assoc]
    constructor
    · rintro ⟨h1, h2, h3, h4, h5⟩; exact ⟨⟨h1, h2, h3, h4⟩, h5⟩
    · rintro ⟨⟨h1, h2, h3, h4⟩, h5⟩; exact ⟨h1, h2, h3, h4, h5⟩

/-! ## Only the next byte matters -/

theorem notNext_head {P : UInt8 → Bool} {r r' : Bytes} (h : r'.head? = r.head?) (hn : NotNext P r) : NotNext P r' := fun b hb => hn b (h ▸ hb)

theorem head_append {l r r' : Bytes} (h : r'.head? = r.head?) : (l ++ r').head? = (l ++ r).head? := by
  rw [List.head?_append, List.head?_append, h]

theorem lineEnd_head {e r r' : Bytes} (h : r'.head? = r.head?) (hl : Lex.LineEnd e r) : Lex.LineEnd e r' := by
  cases hl with
  | none hn => exact .none (notNext_head h hn)
  | lf => exact .lf
  | crlf => exact .crlf

theorem usedAs_head {m : Lex.MacroInfo} {r r' : Bytes} (h : r'.head? = r.head?) : Lex.UsedAs m r' = Lex.UsedAs m r := by
  unfold Lex.UsedAs; rw [h]

theorem reads_head {ms : Macros} {x e r r' : Bytes} {ty : TokType} {fl : Nat} (h : r'.head? = r.head?) (hr : Reads ms x e r ty fl) : Reads ms x e r' ty fl := by
  cases hr with
  | word h1 h2 h3 h4 => exact .word h1 h2 h3 (notNext_head h h4)
  | keyword h1 h2 h3 h4 h5 h6 h7 => exact .keyword h1 h2 h3 h4 h5 h6 (notNext_head h h7)
  | externSpec h1 h2 h3 h4 h5 => exact .externSpec h1 h2 (notNext_head (head_append h) h3) h4 (notNext_head h h5)
  | externLinkage h1 h2 h3 h4 h5 => exact .externLinkage h1 h2 (notNext_head (head_append h) h3) h4 (h ▸ h5)
  | macroUse h1 h2 h3 h4 h5 h6 h7 =>
    exact .macroUse h1 h2 h3 (notNext_head h h4) (by rw [usedAs_head h]; exact h5) (h6.imp id (notNext_head h)) h7
  | macroMisused h1 h2 h3 h4 h5 => exact .macroMisused h1 h2 h3 (notNext_head h h4) (by rw [usedAs_head h]; exact h5)
  | punct h1 h2 => exact .punct h1 (notNext_head h h2)
  | braceClose h1 => exact .braceClose (lineEnd_head h h1)
  | semicolon h1 => exact .semicolon (lineEnd_head h h1)
  | string h1 => exact .string h1
  | char h1 h2 => exact .char h1 h2
  | charEscape h1 h2 => exact .charEscape h1 h2
  | integer h1 h2 h3 => exact .integer h1 h2 (notNext_head h h3)
  | based h1 h2 h3 h4 => exact .based h1 h2 h3 (notNext_head h h4)
  | decimal h1 h2 h3 h4 => exact .decimal h1 h2 h3 (notNext_head h h4)
  | suffixed h1 h2 h3 h4 => exact .suffixed h1 h2 h3 h4

theorem comment_head {x r r' : Bytes} (h : r'.head? = r.head?) (hc : CommentText x r) : CommentText x r' := by
  cases hc with
  | lineEof hw =>
    rw [List.head?_nil, List.head?_eq_none_iff] at h
    subst h
    exact .lineEof hw
  | lineLf hw => exact .lineLf hw
  | lineCrlf hw => exact .lineCrlf hw
  | block hw hn => exact .block hw (notNext_head h hn)
  | blockLf hw => exact .blockLf hw

theorem isPiece_head {ms : Macros} {b : Bool} {q : Piece} {r r' : Bytes} (h : r'.head? = r.head?) (hp : IsPiece ms b q r) : IsPiece ms b q r' := by
  cases hp with
  | token hr => exact .token (reads_head h hr)
  | newline hb => exact .newline hb
  | comment hc => exact .comment (comment_head h hc)

theorem sits_head {ms : Macros} {l : List Piece} {r r' : Bytes} (h : r'.head? = r.head?) : ∀ {b : Bool}, Sits ms b l r → Sits ms b l r' := by
  induction l with
  | nil => exact fun _ => trivial
  | cons q l ih => exact fun ⟨h1, h2, h3, h4⟩ => ⟨h1, h2, isPiece_head (head_append h) h3, ih h4⟩

/-! ## Tokens -/

theorem comment_ne {x r : Bytes} (h : CommentText x r) : x ≠ [] := by
  cases h <;> simp

theorem isPiece_text {ms : Macros} {b : Bool} {q : Piece} {r : Bytes} (h : IsPiece ms b q r) : q.text ≠ [] := by
  cases h with
  | token h => exact Lex.reads_text h
  | newline => simp
  | comment h => exact comment_ne h

theorem isPiece_all {ms : Macros} {b : Bool} {q : Piece} {r : Bytes} (h : IsPiece ms b q r) : q.all ≠ [] := by
  unfold Piece.all
  simp [isPiece_text h]

/-- The column is 1 at the beginning of a line. -/
theorem col_lineStart {p : Pos} {w : Bytes} (hp : 0 < p.col) : decide ((p.after w).col = 1) = lineStart (decide (p.col = 1)) w := by
  rcases List.eq_nil_or_concat w with rfl | ⟨v, b, rfl⟩
  · rfl
  · rw [List.concat_eq_append, lineStart_of List.getLast?_concat, Lex.after_append, Lex.after_cons, Lex.after_nil]
    unfold Pos.step
    have := Lex.after_pos (w := v) hp
    by_cases hb : b = 10
    · simp [hb]
    · rw [if_neg hb]
      simp only [hb, beq_eq_false_iff_ne.mpr hb]
      rw [decide_eq_false_iff_not]
      omega

/-- The pieces are read as their tokens. -/
theorem sits_lexes {ms : Macros} {l : List Piece} {g : Bytes} (hg : Spaces g) : ∀ {p : Pos}, 0 < p.col → Sits ms (decide (p.col = 1)) l g →
    (lineStart (decide (p.col = 1)) (written l) = true → NotNext (fun b => b == 13 || b == 10) g) → Lexes ms p (written l ++ g) (toksAt p l) ms := by
  induction l with
  | nil => exact fun {p} _ _ h => .done ⟨hg, fun hh => h (by simpa using hh)⟩
  | cons q l ih =>
    intro p hp ⟨h1, h2, h3, h4⟩ hl
    have hrest := ih (p := p.after q.all) (Lex.after_pos hp) (by rw [col_lineStart hp]; exact h4) (by rw [col_lineStart hp]; rw [written_cons, lineStart_append] at hl; exact hl)
    rw [written_cons, List.append_assoc, toksAt]
    cases h3 with
    | token hr => exact .token ⟨h1, fun hc => h2 (by simpa using hc)⟩ hr hrest
    | newline hb => exact .newline (by simpa using hb) hrest
    | @comment gp x _ hc =>
      have ha : Piece.all ⟨gp, x, [], .Comment, 0⟩ = gp ++ x := by unfold Piece.all; simp
      rw [ha] at hrest ⊢
      exact .comment ⟨h1, fun hc => h2 (by simpa using hc)⟩ hc hrest

theorem word_first {x : Bytes} (h : Lex.IsWord x) : NotNext charIsSpace x := by
  obtain ⟨a, r, rfl, h1, -⟩ := h
  intro b hb
  cases hb
  rw [Bool.eq_false_iff]
  intro hs
  unfold charIsSpace at hs
  simp only [Bool.or_eq_true, beq_iff_eq] at hs
  rcases hs with ((((rfl | rfl) | rfl) | rfl) | rfl) | rfl <;> (rcases h1 with h | h <;> exact absurd h (by decide))

theorem digit_first {x y : Bytes} (h0 : x ≠ []) (h : ∀ b ∈ x, charIsDigit b = true) : NotNext charIsSpace (x ++ y) := by
  cases x with
  | nil => exact absurd rfl h0
  | cons a r =>
    intro b hb
    cases hb
    have h1 := h a List.mem_cons_self
    rw [Bool.eq_false_iff]
    intro hs
    unfold charIsSpace at hs
    simp only [Bool.or_eq_true, beq_iff_eq] at hs
    rcases hs with ((((rfl | rfl) | rfl) | rfl) | rfl) | rfl <;> exact absurd h1 (by decide)

/-- A token does not begin with white space. -/
theorem reads_first {ms : Macros} {x e r : Bytes} {ty : TokType} {fl : Nat} (h : Reads ms x e r ty fl) : NotNext charIsSpace x := by
  cases h with
  | word h => exact word_first h
  | keyword h => exact word_first h
  | externSpec h => exact word_first h
  | externLinkage h => exact word_first h
  | macroUse h => exact word_first h
  | macroMisused h => exact word_first h
  | punct h =>
    have : ∀ a ∈ Lex.punctuation, a.1.head?.any charIsSpace = false := by decide
    intro b hb
    have := this _ h
    rw [hb] at this
    exact this
  | integer h0 h => have := digit_first (y := []) h0 h; rwa [List.append_nil] at this
  | based h => exact digit_first (x := [_]) (by simp) (by simpa using h)
  | decimal h0 h => exact digit_first h0 h
  | suffixed h0 h => rw [List.append_assoc]; exact digit_first h0 h
  | braceClose | semicolon | string | char | charEscape => intro b hb; cases hb; decide

theorem comment_first {x r : Bytes} (h : CommentText x r) : NotNext charIsSpace x := by
  cases h <;> (intro b hb; cases hb; decide)

/-- The tokens of a content of pieces. -/
theorem sits_lex {ms : Macros} {q : Piece} {l : List Piece} {g : Bytes} (hq : q.gap = []) (hg : Spaces g) (h : Sits ms true (q :: l) []) (hw : NotNext charIsSpace q.text)
    (fatal : Bool) : Lex.lex fatal ms (g ++ written (q :: l)) = .ok (some (toksAt (Pos.after ⟨0, 1, 1⟩ g) (q :: l), ms)) := by
  have hs : ∀ b, Sits ms b (q :: l) [] := by
    intro b
    obtain ⟨h1, h2, h3, h4⟩ := h
    refine ⟨h1, (fun _ => by rw [hq]; intro b hb; cases hb), ?_, ?_⟩
    · cases h3 with
      | token h => exact .token h
      | newline => exact absurd (hw 10 rfl) (by decide)
      | comment h => exact .comment h
    · rw [show lineStart b q.all = lineStart true q.all by
        unfold lineStart
        cases hh : q.all.getLast? with
        | none => rw [List.getLast?_eq_none_iff] at hh; exact absurd hh (isPiece_all h3)
        | some => rfl]
      exact h4
  have htx := isPiece_text h.2.2.1
  refine Lex.C27_exact fatal hg (by
    have := sits_lexes (g := []) (by intro b hb; cases hb) (p := Pos.after ⟨0, 1, 1⟩ g) (Lex.after_pos Nat.one_pos) (hs _) (fun _ => by intro b hb; cases hb)
    rwa [List.append_nil] at this) ?_ (by simp [toksAt])
  intro b hb
  refine hw b ?_
  rw [written_cons, Piece.all, hq, List.nil_append] at hb
  cases hx : q.text with
  | nil => exact absurd hx htx
  | cons a w => rw [hx] at hb; exact hb

/-! ## Where the tokens are -/

theorem toksAt_append {l k : List Piece} : ∀ {p : Pos}, toksAt p (l ++ k) = toksAt p l ++ toksAt (p.after (written l)) k := by
  induction l with
  | nil => intro p; rfl
  | cons q l ih => intro p; rw [List.cons_append, toksAt, toksAt, ih, List.cons_append, written_cons, Lex.after_append]

theorem toksAt_length {l : List Piece} : ∀ {p : Pos}, (toksAt p l).length = l.length := by
  induction l with
  | nil => intro p; rfl
  | cons q l ih => intro p; rw [toksAt, List.length_cons, List.length_cons, ih]

/-- The pieces `l` lie in the content `c` at the position `p`. -/
def On (c : Bytes) (p : Pos) (l : List Piece) : Prop := ∃ u v, c = u ++ written l ++ v ∧ p.off = u.length

theorem On.left {c : Bytes} {p : Pos} {l k : List Piece} (h : On c p (l ++ k)) : On c p l := by
  obtain ⟨u, v, h1, h2⟩ := h
  exact ⟨u, written k ++ v, by rw [h1]; simp, h2⟩

theorem On.right {c : Bytes} {p : Pos} {l k : List Piece} (h : On c p (l ++ k)) : On c (p.after (written l)) k := by
  obtain ⟨u, v, h1, h2⟩ := h
  exact ⟨u ++ written l, v, by rw [h1]; simp, by rw [Lex.after_off, h2, List.length_append]⟩

theorem On.head {c : Bytes} {p : Pos} {q : Piece} {l : List Piece} (h : On c p (q :: l)) : On c p [q] := On.left (l := [q]) h

theorem On.tail {c : Bytes} {p : Pos} {q : Piece} {l : List Piece} (h : On c p (q :: l)) : On c (p.after q.all) l := by
  have := On.right (l := [q]) h
  simpa using this

theorem slice_mid {u x v : Bytes} : Lex.slice (u ++ x ++ v) u.length x.length = x := by
  unfold Lex.slice
  rw [List.append_assoc, List.drop_left, List.take_left]

theorem On.slice {c : Bytes} {p : Pos} {l : List Piece} {a x z : Bytes} (h : On c p l) (hl : written l = a ++ x ++ z) : Lex.slice c (p.off + a.length) x.length = x := by
  obtain ⟨u, v, h1, h2⟩ := h
  rw [h1, hl, h2, ← List.length_append, show u ++ (a ++ x ++ z) ++ v = (u ++ a) ++ x ++ (z ++ v) by simp]
  exact slice_mid

/-- The token of a piece. -/
def tokOf (p : Pos) (q : Piece) : Tok := ⟨p.off + q.gap.length, q.text.length, q.type, p.line, p.col, q.flags⟩

theorem toksAt_cons {p : Pos} {q : Piece} {l : List Piece} : toksAt p (q :: l) = tokOf p q :: toksAt (p.after q.all) l := rfl
theorem toksAt_nil {p : Pos} : toksAt p [] = [] := rfl

theorem On.tokIs {c : Bytes} {p : Pos} {q : Piece} {l : List Piece} (h : On c p (q :: l)) : TokIs c (tokOf p q) q.type q.flags q.text :=
  ⟨rfl, rfl, rfl, h.slice (a := q.gap) (z := q.over ++ written l) (by rw [written_cons, Piece.all]; simp)⟩

/-- The last token. -/
theorem toksAt_last {l : List Piece} {q : Piece} : ∀ {p : Pos}, ∃ t, (toksAt p (l ++ [q])).getLast? = some t ∧ t.start + t.len + q.over.length = p.off + (written (l ++ [q])).length ∧
    t.type = q.type := by
  intro p
  rw [toksAt_append, toksAt_cons, toksAt_nil]
  refine ⟨_, List.getLast?_concat, ?_, rfl⟩
  simp only [tokOf, Lex.after_off, written_append, written_cons, written_nil, Piece.all, List.length_append, List.append_nil]
  omega

/-- The text from the first token to the last one. -/
theorem On.spans {c : Bytes} {p : Pos} {l : List Piece} {q r : Piece} {x : Bytes} (h : On c p l) (hq : l.head? = some q) (hr : l.getLast? = some r)
    (hx : written l = q.gap ++ x ++ r.over) : Spans c (toksAt p l) x := by
  obtain ⟨m, rfl⟩ := List.getLast?_eq_some_iff.mp hr
  obtain ⟨t, h1, h2, -⟩ := toksAt_last (l := m) (q := r) (p := p)
  have hlen := congrArg List.length hx
  have hf : (toksAt p (m ++ [r])).head? = some (tokOf p q) := by
    cases hm : m ++ [r] with
    | nil => simp at hm
    | cons a b => rw [hm] at hq; cases hq; rfl
  refine ⟨tokOf p q, t, hf, h1, ?_, h.slice (a := q.gap) (z := r.over) hx⟩
  simp only [List.length_append] at hlen h2
  simp only [tokOf]
  omega

/-- The text from the first token up to the token `u` behind the pieces. -/
theorem On.upTo {c : Bytes} {p : Pos} {l : List Piece} {q u : Piece} {x : Bytes} (h : On c p (l ++ [u])) (hq : l.head? = some q) (hx : written l ++ u.gap = q.gap ++ x) :
    UpTo c (toksAt p l) (tokOf (p.after (written l)) u) x := by
  have hlen := congrArg List.length hx
  have hf : (toksAt p l).head? = some (tokOf p q) := by
    cases l with
    | nil => cases hq
    | cons a b => cases hq; rfl
  refine ⟨tokOf p q, hf, ?_, h.slice (a := q.gap) (z := u.text ++ u.over) ?_⟩
  · simp only [List.length_append] at hlen
    simp only [tokOf, Lex.after_off]
    omega
  · rw [← hx, written_append, written_cons, Piece.all]
    simp

theorem mem_toksAt {l : List Piece} {t : Tok} : ∀ {p : Pos}, t ∈ toksAt p l → ∃ q ∈ l, t.type = q.type := by
  induction l with
  | nil => intro p h; cases h
  | cons q l ih =>
    intro p h
    rw [toksAt_cons] at h
    rcases List.mem_cons.mp h with rfl | h
    · exact ⟨q, List.mem_cons_self, rfl⟩
    · obtain ⟨a, h1, h2⟩ := ih h
      exact ⟨a, List.mem_cons_of_mem _ h1, h2⟩

end Verif.Round
