import Verif.Proof.LexerTurn
/-!
# C26-C28: the lexer

The specification is in `Verif.Props.LexSpec`: `Tiled` (how tokens cover a text), `Lexeme` (which texts suit which type), `Placed`
(which positions may be recorded), `Safe` (texts the lexer stays inside of), `Crlf` (carriage returns only before newlines).
-/
namespace Verif.Lex

/-! ## C26: no hang, no read outside the content -/

/-- C26 **(it always ends)**: for every content, whatever its bytes, whatever macros are registered and whether failures are fatal or
not, lexing comes to an end. -/
theorem C26_terminates (fatal : Bool) (ms : Macros) (content : Bytes) : lex fatal ms content ≠ .hang := by
  have h := W_lex (fatal := fatal) (u := True) (J := True) ⟨rfl, .inl trivial, .inl trivial⟩ ms (content := content)
  intro he
  rw [he] at h
  exact h

/-- C26 **(inside the content)**: if every `/*` has a `*/` behind it, includes are closed, defines are not empty and carriage returns
stand only before newlines, nothing outside the content and its terminator is read, and so lexing ends with tokens, with a null array
or by a reported failure. -/
theorem C26_safe_partial (fatal : Bool) (ms : Macros) (content : Bytes) (h : Safe content) : lex fatal ms content ≠ .ub := by
  have h := W_lex (fatal := fatal) (u := False) (J := True) ⟨rfl, .inl trivial, .inr h⟩ ms (content := content)
  intro he
  rw [he] at h
  exact h

theorem no_infix_tail {x : UInt8} {r : Bytes} (h : ¬ ∃ p q, x :: r = p ++ 42 :: 47 :: q) : ¬ ∃ p q, r = p ++ 42 :: 47 :: q := by
  rintro ⟨p, q, rfl⟩
  exact h ⟨x :: p, q, rfl⟩

theorem commentLoop_ub : ∀ (rest : Bytes) (p : Pos) (fuel : Nat), rest.length ≤ fuel → (¬ ∃ p q, rest = p ++ 42 :: 47 :: q) →
    commentLoop fuel ⟨rest, p⟩ = .ub
  | [], p, fuel, _, _ => by unfold commentLoop; rfl
  | [x], p, fuel, _, _ => by unfold commentLoop; rfl
  | x :: y :: r, p, fuel, hf, h => by
    unfold commentLoop
    have he : atEnd ⟨x :: y :: r, p⟩ = .ok (x == 42 && y == 47) := rfl
    rw [he, Res.ok_bind, if_neg]
    · cases fuel with
      | zero => simp at hf
      | succ fuel =>
        have hm : Cur.move ⟨x :: y :: r, p⟩ = .ok ⟨y :: r, p.step x⟩ := rfl
        simp only [hm, Res.ok_bind]
        rw [commentLoop_ub (y :: r) (p.step x) fuel (by simp at hf ⊢; omega) (no_infix_tail h)]
        rfl
    · rintro (hl | hl)
      · simp [Cur.left] at hl; omega
      · simp at hl
        exact h ⟨[], r, by rw [hl.1, hl.2]; rfl⟩

/-- C26 fails for an unterminated block comment: it is read beyond the content, whatever the comment contains. -/
theorem C26_open_comment (fatal : Bool) (ms : Macros) (b : Bytes) (hb : ¬ ∃ p q, b = p ++ 42 :: 47 :: q) :
    lex fatal ms (b!"/*" ++ b) = .ub := by
  have h0 : ¬ ∃ p q, b ++ [0] = p ++ 42 :: 47 :: q := by
    rintro ⟨p, q, h⟩
    rcases List.eq_nil_or_concat q with rfl | ⟨q', x, rfl⟩
    · have := congrArg List.getLast? h
      simp at this
    · apply hb
      refine ⟨p, q', ?_⟩
      have h' : b ++ [0] = (p ++ 42 :: 47 :: q') ++ [x] := by rw [h]; simp
      exact (List.append_inj' h' rfl).1
  have h1 : lexSlash ⟨b!"/*" ++ b ++ [0], ⟨0, 1, 1⟩⟩ (Cur.tok ⟨b!"/*" ++ b ++ [0], ⟨0, 1, 1⟩⟩ 0 .Invalid 0) = .ub := by
    unfold lexSlash
    have hm : Cur.move ⟨b!"/*" ++ b ++ [0], ⟨0, 1, 1⟩⟩ = .ok ⟨42 :: (b ++ [0]), ⟨1, 1, 2⟩⟩ := rfl
    simp only [hm, Res.ok_bind]
    rw [if_neg (by simp [Cur.left]; omega)]
    have hp : Cur.peek ⟨42 :: (b ++ [0]), ⟨1, 1, 2⟩⟩ = .ok 42 := rfl
    have hm2 : Cur.move ⟨42 :: (b ++ [0]), ⟨1, 1, 2⟩⟩ = .ok ⟨b ++ [0], ⟨2, 1, 3⟩⟩ := rfl
    simp only [hp, hm2, Res.ok_bind]
    rw [if_neg (by decide), if_neg (by decide), if_pos trivial, commentLoop_ub _ _ _ (by simp) h0]
    rfl
  unfold lex
  have hs : skipWs ⟨b!"/*" ++ b ++ [0], ⟨0, 1, 1⟩⟩ = .ok ⟨b!"/*" ++ b ++ [0], ⟨0, 1, 1⟩⟩ := rfl
  have hl : ¬ Cur.left ⟨b!"/*" ++ b ++ [0], ⟨0, 1, 1⟩⟩ ≤ 0 := by simp [Cur.left]; omega
  have ht : turn (b!"/*" ++ b ++ [0]) fatal ⟨⟨b!"/*" ++ b ++ [0], ⟨0, 1, 1⟩⟩, [], ms⟩ = .ub := by
    unfold turn
    have hf : firstColumn ⟨b!"/*" ++ b ++ [0], ⟨0, 1, 1⟩⟩ = .ok (⟨b!"/*" ++ b ++ [0], ⟨0, 1, 1⟩⟩, none) := rfl
    have hp : Cur.peek ⟨b!"/*" ++ b ++ [0], ⟨0, 1, 1⟩⟩ = .ok 47 := rfl
    simp only [hf, hs, hp, Res.ok_bind, if_neg hl]
    rw [if_neg (by decide)]
    have hsw : lexSwitch fatal 47 ⟨b!"/*" ++ b ++ [0], ⟨0, 1, 1⟩⟩ (Cur.tok ⟨b!"/*" ++ b ++ [0], ⟨0, 1, 1⟩⟩ 0 .Invalid 0) =
      lexSlash ⟨b!"/*" ++ b ++ [0], ⟨0, 1, 1⟩⟩ (Cur.tok ⟨b!"/*" ++ b ++ [0], ⟨0, 1, 1⟩⟩ 0 .Invalid 0) := rfl
    rw [hsw, h1]
    rfl
  simp only [hs, Res.ok_bind, if_neg hl]
  unfold loop
  rw [if_neg (by simp only [Cur.left] at hl ⊢; omega)]
  simp only [ht]
  rfl

/-- C26 fails for an include that is not closed: the closing quote is looked for, taken for granted, and the byte behind it read. -/
theorem C26_open_include (fatal : Bool) (ms : Macros) (d : Bytes) (hd : ∀ e ∈ d, e ≠ 34 ∧ e ≠ 62) :
    lex fatal ms (b!"#include \"" ++ d) = .ub := by
  have hrun : ∀ (d : Bytes) (p : Pos), (∀ e ∈ d, e ≠ 34 ∧ e ≠ 62) →
      ∃ p' n, runL (fun b => b != 34 && b != 62) (d ++ [0]) p = .ok (⟨[0], p'⟩, n) := by
    intro d
    induction d with
    | nil => intro p _; exact ⟨p, 0, rfl⟩
    | cons e d ih =>
      intro p he
      obtain ⟨p', n, h⟩ := ih (p.step e) (fun x hx => he x (by simp [hx]))
      refine ⟨p', n + 1, ?_⟩
      obtain ⟨x, y, hxy⟩ : ∃ x y, d ++ [0] = x :: y := by cases d <;> exact ⟨_, _, rfl⟩
      rw [hxy] at h
      have h2 := he e (by simp)
      rw [List.cons_append, hxy, runL, if_pos (by simp [h2]), h]
      rfl
  obtain ⟨p', n, h⟩ := hrun d ⟨10, 1, 11⟩ hd
  have hdir : ∀ t, lexDirective (b!"#include \"" ++ d ++ [0]) fatal ⟨b!"#include \"" ++ d ++ [0], ⟨0, 1, 1⟩⟩ t [] ms = .ub := by
    intro t
    unfold lexDirective
    have h1 : Cur.move ⟨b!"#include \"" ++ d ++ [0], ⟨0, 1, 1⟩⟩ = .ok ⟨b!"include \"" ++ d ++ [0], ⟨1, 1, 2⟩⟩ := rfl
    have h2 : skipWs ⟨b!"include \"" ++ d ++ [0], ⟨1, 1, 2⟩⟩ = .ok ⟨b!"include \"" ++ d ++ [0], ⟨1, 1, 2⟩⟩ := rfl
    have h3 : run (fun b => !charIsSpace b) ⟨b!"include \"" ++ d ++ [0], ⟨1, 1, 2⟩⟩ = .ok (⟨b!" \"" ++ d ++ [0], ⟨8, 1, 9⟩⟩, 7) := rfl
    have h4 : slice (b!"#include \"" ++ d ++ [0]) 1 7 = b!"include" := rfl
    have h5 : strToTokType b!"include" = .Preprocess_Include := by decide +kernel
    have h6 : skipWs ⟨b!" \"" ++ d ++ [0], ⟨8, 1, 9⟩⟩ = .ok ⟨b!"\"" ++ d ++ [0], ⟨9, 1, 10⟩⟩ := by
      cases d <;> rfl
    have h7 : Cur.peek ⟨b!"\"" ++ d ++ [0], ⟨9, 1, 10⟩⟩ = .ok 34 := rfl
    have h8 : Cur.move ⟨b!"\"" ++ d ++ [0], ⟨9, 1, 10⟩⟩ = .ok ⟨d ++ [0], ⟨10, 1, 11⟩⟩ := rfl
    have h9 : run (fun b => b != 34 && b != 62) ⟨d ++ [0], ⟨10, 1, 11⟩⟩ = .ok (⟨[0], p'⟩, n) := h
    have h10 : Cur.move ⟨[0], p'⟩ = .ok ⟨[], p'.step 0⟩ := rfl
    have h11 : Cur.peek ⟨[], p'.step 0⟩ = .ub := rfl
    simp only [h1, h2, h3, h4, h5, Res.ok_bind]
    rw [if_neg (by decide), if_neg (by decide)]
    simp only [h6, Res.ok_bind]
    rw [if_neg (by decide)]
    simp only [Res.ok_bind]
    simp only [if_true, h7, Res.ok_bind]
    rw [if_neg (by decide)]
    simp only [h8, h9, h10, h11, Res.ok_bind]
    rfl
  unfold lex
  have hs : skipWs ⟨b!"#include \"" ++ d ++ [0], ⟨0, 1, 1⟩⟩ = .ok ⟨b!"#include \"" ++ d ++ [0], ⟨0, 1, 1⟩⟩ := rfl
  have hl : ¬ Cur.left ⟨b!"#include \"" ++ d ++ [0], ⟨0, 1, 1⟩⟩ ≤ 0 := by simp [Cur.left]; omega
  have ht : turn (b!"#include \"" ++ d ++ [0]) fatal ⟨⟨b!"#include \"" ++ d ++ [0], ⟨0, 1, 1⟩⟩, [], ms⟩ = .ub := by
    unfold turn
    have hf : firstColumn ⟨b!"#include \"" ++ d ++ [0], ⟨0, 1, 1⟩⟩ = .ok (⟨b!"#include \"" ++ d ++ [0], ⟨0, 1, 1⟩⟩, none) := rfl
    have hp : Cur.peek ⟨b!"#include \"" ++ d ++ [0], ⟨0, 1, 1⟩⟩ = .ok 35 := rfl
    simp only [hf, hs, hp, Res.ok_bind, if_neg hl, if_true]
    rw [hdir]
    rfl
  simp only [hs, Res.ok_bind, if_neg hl]
  unfold loop
  rw [if_neg (by simp only [Cur.left] at hl ⊢; omega)]
  simp only [ht]
  rfl

/-- C26 fails for an empty define at the end. -/
theorem C26_bare_define : lex true [] b!"#define" = .ub ∧ lex false [] b!"#define" = .ub := by decide +kernel

/-- C26 fails for a carriage return at the end, behind a `;`. -/
theorem C26_last_cr : lex true [] b!"int x;\r" = .ub := by decide +kernel

/-! A decision procedure for `Safe`, to show that there are safe texts with all the critical constructs. -/

def crlfCheck : Bytes → Bool
  | [] => true
  | b :: r => (b != 13 || r.head? == some 10) && crlfCheck r

def hasEnd : Bytes → Bool
  | [] => false
  | b :: r => (b == 42 && r.head? == some 47) || hasEnd r

def commentCheck : Bytes → Bool
  | [] => true
  | b :: r => (!(b == 47 && r.head? == some 42) || hasEnd r.tail) && commentCheck r

/-- Every way to split off a prefix. -/
def splits : Bytes → List (Bytes × Bytes)
  | [] => [([], [])]
  | b :: r => ([], b :: r) :: (splits r).map fun x => (b :: x.1, x.2)

def hashCheck (P : Bytes → Bool) : Bytes → Bool
  | [] => true
  | b :: r => (b != 35 || (splits r).all fun x => !x.1.all charIsSpace || P x.2) && hashCheck P r

def includeCheck (r : Bytes) : Bool :=
  (splits r).all fun x => strToTokType x.1 != .Preprocess_Include || (splits x.2).all fun y => !y.1.all charIsSpace ||
    match y.2 with
    | o :: d => (o != 34 && o != 60) || d.any fun e => e == 34 || e == 62
    | [] => true

def defineCheck (r : Bytes) : Bool :=
  (splits r).all fun x => strToTokType x.1 != .Preprocess_Define || x.2.any fun b => !charIsSpace b

theorem mem_splits (a b : Bytes) : (a, b) ∈ splits (a ++ b) := by
  induction a with
  | nil => cases b <;> simp [splits]
  | cons x a ih =>
    simp only [List.cons_append, splits, List.mem_cons, List.mem_map]
    exact .inr ⟨_, ih, rfl⟩

theorem hashCheck_spec {P : Bytes → Bool} {a s r : Bytes} (h : hashCheck P (a ++ 35 :: (s ++ r)) = true)
    (hs : ∀ b ∈ s, charIsSpace b = true) : P r = true := by
  induction a with
  | nil =>
    simp only [List.nil_append, hashCheck, Bool.and_eq_true, Bool.or_eq_true, List.all_eq_true] at h
    have h1 := h.1.resolve_left (by decide) _ (mem_splits s r)
    simpa [List.all_eq_true.2 hs] using h1
  | cons x a ih =>
    simp only [List.cons_append, hashCheck, Bool.and_eq_true] at h
    exact ih h.2

theorem hasEnd_spec {b : Bytes} (h : hasEnd b = true) : ∃ p q, b = p ++ 42 :: 47 :: q := by
  induction b with
  | nil => simp [hasEnd] at h
  | cons x b ih =>
    simp only [hasEnd, Bool.or_eq_true, Bool.and_eq_true, beq_iff_eq] at h
    rcases h with ⟨h1, h2⟩ | h
    · cases b with
      | nil => simp at h2
      | cons y b => exact ⟨[], b, by simp at h2; rw [h1, h2]; rfl⟩
    · obtain ⟨p, q, rfl⟩ := ih h
      exact ⟨x :: p, q, rfl⟩

theorem safe_of_check {content : Bytes} (h1 : crlfCheck content = true) (h2 : commentCheck content = true)
    (h3 : hashCheck includeCheck content = true) (h4 : hashCheck defineCheck content = true) : Safe content := by
  refine ⟨?_, ?_, ?_, ?_⟩
  · rintro a b rfl
    induction a with
    | nil =>
      simp only [List.nil_append, crlfCheck, Bool.and_eq_true, Bool.or_eq_true, beq_iff_eq] at h1
      have h := h1.1.resolve_left (by decide)
      cases b with
      | nil => simp at h
      | cons y b => exact ⟨b, by simp at h; rw [h]⟩
    | cons x a ih =>
      simp only [List.cons_append, crlfCheck, commentCheck, hashCheck, Bool.and_eq_true] at h1 h2 h3 h4
      exact ih h1.2 h2.2 h3.2 h4.2
  · rintro a b rfl
    induction a with
    | nil =>
      simp only [List.nil_append, commentCheck, Bool.and_eq_true, Bool.or_eq_true] at h2
      exact hasEnd_spec (h2.1.resolve_left (by simp))
    | cons x a ih =>
      simp only [List.cons_append, crlfCheck, commentCheck, hashCheck, Bool.and_eq_true] at h1 h2 h3 h4
      exact ih h1.2 h2.2 h3.2 h4.2
  · rintro a s w s' o d rfl hs hs' hw ho
    have h := hashCheck_spec h3 hs
    have := List.all_eq_true.1 h _ (mem_splits w (s' ++ o :: d))
    simp only [hw, bne_self_eq_false, Bool.false_or] at this
    have := List.all_eq_true.1 this _ (mem_splits s' (o :: d))
    simp only [List.all_eq_true.2 hs', Bool.not_true, Bool.false_or, Bool.or_eq_true, Bool.and_eq_true, bne_iff_ne] at this
    rcases this with this | this
    · rcases ho with rfl | rfl <;> simp at this
    · simpa using this
  · rintro a s w d rfl hs hw
    have h := hashCheck_spec h4 hs
    have := List.all_eq_true.1 h _ (mem_splits w d)
    simpa [hw] using this

/-- C26's hypothesis is met by a text with an include, a define, a comment and a carriage return. -/
theorem safe_sample : Safe b!"# include <a>\r\n#define B 1\n/* c */ x;" :=
  safe_of_check (by decide +kernel) (by decide +kernel) (by decide +kernel) (by decide +kernel)

/-! ## C27: the tokens cover the content -/

/-- C27 **(nothing lost, nothing invented)**: when lexing succeeds, the content, read from left to right, consists of the texts of
the tokens in their order, of whitespace, of closing quotes and of backslashes between the parameters of a define; every token's text
suits its type. -/
theorem C27_tiled (ms ms' : Macros) (content : Bytes) (toks : List Tok) (hcr : Crlf content)
    (h : lex true ms content = .ok (some (toks, ms'))) : Tiled content toks := by
  have hw := W_lex (fatal := true) (u := True) (J := False) ⟨rfl, .inr ⟨rfl, hcr⟩, .inl trivial⟩ ms (content := content)
  rw [h] at hw
  exact (hw _ rfl).resolve_left id

theorem slice_append {w v : Bytes} {a n : Nat} (h : a + n ≤ w.length) : slice (w ++ v) a n = slice w a n := by
  unfold slice
  rw [List.drop_append_of_le_length (by omega), List.take_append_of_le_length (by simp; omega)]

theorem Tiled.inside {w : Bytes} {ts : List Tok} (h : Tiled w ts) : ∀ t ∈ ts, t.start + t.len ≤ w.length := by
  induction h with
  | nil => simp
  | white _ _ ih => intro t ht; have := ih t ht; simp; omega
  | tok _ _ h1 h2 _ _ ih =>
    intro t ht
    rcases List.mem_append.1 ht with ht | ht
    · have := ih t ht; simp; omega
    · simp only [List.mem_cons, List.not_mem_nil, or_false] at ht
      subst ht
      simp; omega
  | quote _ _ _ ih => intro t ht; have := ih t ht; simp; omega
  | unsupported _ _ h1 _ h2 h3 _ ih =>
    intro t ht
    rcases List.mem_append.1 ht with ht | ht
    · have := ih t ht; simp at this ⊢; omega
    · simp only [List.mem_cons, List.not_mem_nil, or_false] at ht
      subst ht
      simp; omega

/-- C27: every token lies inside the content. -/
theorem C27_inside (ms ms' : Macros) (content : Bytes) (toks : List Tok) (hcr : Crlf content)
    (h : lex true ms content = .ok (some (toks, ms'))) : ∀ t ∈ toks, t.start + t.len ≤ content.length :=
  (C27_tiled ms ms' content toks hcr h).inside

theorem Tiled.ordered {w : Bytes} {ts : List Tok} (h : Tiled w ts) :
    ts.Pairwise fun t t' => t.start + t.len ≤ t'.start ∨
      (t.type = .Preprocess_Hash ∧ t'.type = .Preprocess_Unsupported ∧ t.start = t'.start) := by
  induction h with
  | nil => exact .nil
  | white _ _ ih => exact ih
  | tok hT _ h1 _ _ _ ih =>
    refine List.pairwise_append.2 ⟨ih, by simp, ?_⟩
    intro t ht t' ht'
    simp only [List.mem_cons, List.not_mem_nil, or_false] at ht'
    subst ht'
    have := hT.inside t ht
    exact .inl (by omega)
  | quote _ _ _ ih => exact ih
  | @unsupported w ts x hh t0 hT hty h1 hty2 h2 h3 _ ih =>
    refine List.pairwise_append.2 ⟨ih, by simp, ?_⟩
    intro t ht t' ht'
    simp only [List.mem_cons, List.not_mem_nil, or_false] at ht'
    subst ht'
    rcases List.mem_append.1 ht with ht | ht
    · rcases (List.pairwise_append.1 ih).2.2 t ht hh (by simp) with h | ⟨_, h, _⟩
      · exact .inl (by omega)
      · rw [hty] at h; cases h
    · simp only [List.mem_cons, List.not_mem_nil, or_false] at ht
      subst ht
      exact .inr ⟨hty, hty2, h1.trans h2.symm⟩

/-- C27: tokens are in the order of their texts and do not overlap, except that an unsupported directive begins at its `#`, for
which there is a token of its own. -/
theorem C27_ordered (ms ms' : Macros) (content : Bytes) (toks : List Tok) (hcr : Crlf content)
    (h : lex true ms content = .ok (some (toks, ms'))) :
    toks.Pairwise fun t t' => t.start + t.len ≤ t'.start ∨
      (t.type = .Preprocess_Hash ∧ t'.type = .Preprocess_Unsupported ∧ t.start = t'.start) :=
  (C27_tiled ms ms' content toks hcr h).ordered

theorem Tiled.covered {w : Bytes} {ts : List Tok} (h : Tiled w ts) : ∀ i b, w[i]? = some b →
    (∃ t ∈ ts, t.start ≤ i ∧ i < t.start + t.len) ∨ charIsSpace b = true ∨ b = 34 ∨ b = 92 := by
  induction h with
  | nil => simp
  | @white w ts x _ hx ih =>
    intro i b hb
    rw [List.getElem?_append] at hb
    split at hb
    · exact ih i b hb
    · obtain ⟨_, hb⟩ := List.getElem?_eq_some_iff.1 hb
      simp at hb
      subst hb
      exact .inr (.inl hx)
  | @tok w ts g x t hT hg h1 h2 _ _ ih =>
    intro i b hb
    rw [List.getElem?_append] at hb
    split at hb
    · rw [List.getElem?_append] at hb
      split at hb
      · rcases ih i b hb with ⟨t', h1, h2⟩ | h
        · exact .inl ⟨t', by simp [h1], h2⟩
        · exact .inr h
      · rcases hg b (List.mem_of_getElem? hb) with h | ⟨h, _⟩
        · exact .inr (.inl h)
        · exact .inr (.inr (.inr h))
    · rename_i hge
      obtain ⟨hlt, _⟩ := List.getElem?_eq_some_iff.1 hb
      simp only [List.length_append, Nat.not_lt] at hge hlt
      exact .inl ⟨t, by simp, by omega, by omega⟩
  | @quote w ts t _ _ _ ih =>
    intro i b hb
    rw [List.getElem?_append] at hb
    split at hb
    · exact ih i b hb
    · have := List.mem_of_getElem? hb
      simp at this
      exact .inr (.inr (.inl this))
  | @unsupported w ts x hh t hT _ h1 _ h2 h3 _ ih =>
    intro i b hb
    rw [List.getElem?_append] at hb
    split at hb
    · rcases ih i b hb with ⟨t', h1, h2⟩ | h
      · exact .inl ⟨t', by simp at h1 ⊢; rcases h1 with h1 | h1 <;> simp [h1], h2⟩
      · exact .inr h
    · rename_i hge
      obtain ⟨hlt, _⟩ := List.getElem?_eq_some_iff.1 hb
      simp only [List.length_append, List.length_cons, List.length_nil, Nat.not_lt] at hge hlt
      exact .inl ⟨t, by simp, by omega, by omega⟩

/-- C27: a byte of the content that is in no token is whitespace, a quote or a backslash. -/
theorem C27_covered (ms ms' : Macros) (content : Bytes) (toks : List Tok) (hcr : Crlf content)
    (h : lex true ms content = .ok (some (toks, ms'))) : ∀ i b, content[i]? = some b →
    (∃ t ∈ toks, t.start ≤ i ∧ i < t.start + t.len) ∨ charIsSpace b = true ∨ b = 34 ∨ b = 92 :=
  (C27_tiled ms ms' content toks hcr h).covered

theorem Tiled.lexemes {w : Bytes} {ts : List Tok} (h : Tiled w ts) : ∀ t ∈ ts,
    (t.type = .Preprocess_Unsupported ∧ w[t.start]? = some 35) ∨ Lexeme t (slice w t.start t.len) := by
  have ext : ∀ {w v : Bytes} {t : Tok}, t.start + t.len ≤ w.length →
      (t.type = .Preprocess_Unsupported ∧ w[t.start]? = some 35) ∨ Lexeme t (slice w t.start t.len) →
      (t.type = .Preprocess_Unsupported ∧ (w ++ v)[t.start]? = some 35) ∨ Lexeme t (slice (w ++ v) t.start t.len) := by
    intro w v t hle h
    rw [slice_append hle]
    rcases h with ⟨h1, h2⟩ | h
    · obtain ⟨hlt, _⟩ := List.getElem?_eq_some_iff.1 h2
      exact .inl ⟨h1, by rw [List.getElem?_append_left hlt]; exact h2⟩
    · exact .inr h
  induction h with
  | nil => simp
  | white hT _ ih => intro t ht; exact ext (hT.inside t ht) (ih t ht)
  | @tok w ts g x t' hT _ h1 h2 hx _ ih =>
    intro t ht
    rcases List.mem_append.1 ht with ht | ht
    · rw [List.append_assoc]; exact ext (hT.inside t ht) (ih t ht)
    · simp only [List.mem_cons, List.not_mem_nil, or_false] at ht
      subst ht
      have : slice (w ++ g ++ x) t.start t.len = x := by
        rw [slice, h1, h2, ← List.length_append]
        simp
      rw [this]
      exact .inr hx
  | quote hT _ _ ih => intro t ht; exact ext (hT.inside t ht) (ih t ht)
  | @unsupported w ts x hh t' hT hty h1 hty2 h2 h3 _ ih =>
    intro t ht
    rcases List.mem_append.1 ht with ht | ht
    · exact ext (hT.inside t ht) (ih t ht)
    · simp only [List.mem_cons, List.not_mem_nil, or_false] at ht
      subst ht
      left
      refine ⟨hty2, ?_⟩
      simp [h2]

/-- C27: the text of a token suits its type; an unsupported directive begins with `#`. -/
theorem C27_lexemes (ms ms' : Macros) (content : Bytes) (toks : List Tok) (hcr : Crlf content)
    (h : lex true ms content = .ok (some (toks, ms'))) : ∀ t ∈ toks,
    (t.type = .Preprocess_Unsupported ∧ content[t.start]? = some 35) ∨ Lexeme t (slice content t.start t.len) :=
  (C27_tiled ms ms' content toks hcr h).lexemes

/-- C27's hypotheses are met: a text with a define, an include, an unsupported directive, a string and a comment. -/
theorem tokens_sample : Crlf b!"#define F(a) 1\n#include <x>\n#error e\nint s = \"q\"; // c\n" ∧
    ∃ toks ms', lex true [] b!"#define F(a) 1\n#include <x>\n#error e\nint s = \"q\"; // c\n" = .ok (some (toks, ms')) ∧
      toks.map (fun t => (t.start, t.len, t.type)) =
        [(0, 1, .Preprocess_Hash), (1, 6, .Preprocess_Define), (8, 1, .Identifier), (9, 1, .Paren_Open), (10, 1, .Preprocess_Define_Param),
         (11, 1, .Paren_Close), (12, 2, .Preprocess_Content), (14, 1, .NewLine), (15, 1, .Preprocess_Hash), (16, 7, .Preprocess_Include),
         (24, 3, .String), (28, 1, .Preprocess_Hash), (28, 9, .Preprocess_Unsupported), (37, 3, .Type_int), (41, 1, .Identifier),
         (43, 1, .Operator), (45, 2, .String), (48, 1, .Statement_End), (50, 5, .Comment)] := by
  refine ⟨?_, ?_⟩
  · intro a b h
    have : (13 : UInt8) ∈ b!"#define F(a) 1\n#include <x>\n#error e\nint s = \"q\"; // c\n" := by rw [h]; simp
    exact absurd this (by decide)
  · have h : (lex true [] b!"#define F(a) 1\n#include <x>\n#error e\nint s = \"q\"; // c\n").bind (fun r => .ok (r.map fun x => x.1.map fun t => (t.start, t.len, t.type))) =
      .ok (some [(0, 1, .Preprocess_Hash), (1, 6, .Preprocess_Define), (8, 1, .Identifier), (9, 1, .Paren_Open), (10, 1, .Preprocess_Define_Param),
         (11, 1, .Paren_Close), (12, 2, .Preprocess_Content), (14, 1, .NewLine), (15, 1, .Preprocess_Hash), (16, 7, .Preprocess_Include),
         (24, 3, .String), (28, 1, .Preprocess_Hash), (28, 9, .Preprocess_Unsupported), (37, 3, .Type_int), (41, 1, .Identifier),
         (43, 1, .Operator), (45, 2, .String), (48, 1, .Statement_End), (50, 5, .Comment)]) := by decide +kernel
    cases hl : lex true [] b!"#define F(a) 1\n#include <x>\n#error e\nint s = \"q\"; // c\n" with
    | ok r =>
      rw [hl] at h
      cases r with
      | none => cases h
      | some x =>
        obtain ⟨toks, ms'⟩ := x
        refine ⟨toks, ms', rfl, ?_⟩
        simpa using h
    | stop => rw [hl] at h; cases h
    | ub => rw [hl] at h; cases h
    | hang => rw [hl] at h; cases h

/-- C27 fails for a carriage return without a newline: the byte behind it is lost (the `x` of `;\rx` is in no token). -/
theorem C27_cr_swallows : (lex true [] b!"a;\rx b").bind (fun r => .ok (r.map fun x => x.1.map fun t => (t.start, t.len, t.type))) =
    .ok (some [(0, 1, .Identifier), (1, 1, .Statement_End), (5, 1, .Identifier)]) := by decide +kernel

/-- C27: the suffix of an integer literal is not part of it; `10u` gives a number and an identifier. -/
theorem C27_integer_suffix : (lex true [] b!"10u").bind (fun r => .ok (r.map fun x => x.1.map fun t => (t.start, t.len, t.type))) =
    .ok (some [(0, 2, .Number), (2, 1, .Identifier)]) := by decide +kernel

/-- C27 fails with `GEN_DONT_USE_FATAL`: of `..` one dot is lost. -/
theorem C27_nonfatal_dots : (lex false [] b!"a..b").bind (fun r => .ok (r.map fun x => x.1.map fun t => (t.start, t.len, t.type))) =
    .ok (some [(0, 1, .Identifier), (1, 1, .Access_MemberSymbol), (3, 1, .Identifier)]) := by decide +kernel

/-! ## C28: positions -/

theorem placed_append {w v : Bytes} {t : Tok} (ht : t.start ≤ w.length) (h : Placed (w.take t.start) t) : Placed ((w ++ v).take t.start) t := by
  rw [List.take_append_of_le_length ht]
  exact h

theorem Tiled.placed {w : Bytes} {ts : List Tok} (h : Tiled w ts) : ∀ t ∈ ts, Placed (w.take t.start) t := by
  induction h with
  | nil => simp
  | white hT _ ih => intro t ht; exact placed_append (by have := hT.inside t ht; omega) (ih t ht)
  | @tok w ts g x t' hT _ h1 h2 _ hp ih =>
    intro t ht
    rcases List.mem_append.1 ht with ht | ht
    · rw [List.append_assoc]; exact placed_append (by have := hT.inside t ht; omega) (ih t ht)
    · simp only [List.mem_cons, List.not_mem_nil, or_false] at ht
      subst ht
      have : (w ++ g ++ x).take t.start = w ++ g := by
        rw [h1, ← List.length_append]
        exact List.take_left
      rw [this]
      exact hp
  | quote hT _ _ ih => intro t ht; exact placed_append (by have := hT.inside t ht; omega) (ih t ht)
  | @unsupported w ts x hh t' hT hty h1 hty2 h2 h3 hp ih =>
    intro t ht
    rcases List.mem_append.1 ht with ht | ht
    · exact placed_append (by have := hT.inside t ht; omega) (ih t ht)
    · simp only [List.mem_cons, List.not_mem_nil, or_false] at ht
      subst ht
      have : (w ++ [35] ++ x).take t.start = w := by simp [h2]
      rw [this]
      exact hp

/-- C28 **(what is recorded)**: the line and column of a token are those of a place from which only whitespace (and the `#` of a
directive) leads to the token. -/
theorem C28_placed_partial (ms ms' : Macros) (content : Bytes) (toks : List Tok) (hcr : Crlf content)
    (h : lex true ms content = .ok (some (toks, ms'))) : ∀ t ∈ toks, Placed (content.take t.start) t :=
  (C27_tiled ms ms' content toks hcr h).placed

/-- C28 **(exact)**: a token with neither whitespace nor a `#` directly before it has the line and column of its first byte. -/
theorem C28_exact_partial (ms ms' : Macros) (content : Bytes) (toks : List Tok) (hcr : Crlf content)
    (h : lex true ms content = .ok (some (toks, ms'))) (t : Tok) (ht : t ∈ toks)
    (hb : t.start = 0 ∨ ∃ b, content[t.start - 1]? = some b ∧ charIsSpace b = false ∧ b ≠ 35) :
    t.line = lineOf (content.take t.start) ∧ t.col = colOf (content.take t.start) := by
  obtain ⟨q, r, h1, h2, h3, h4⟩ := C28_placed_partial ms ms' content toks hcr h t ht
  suffices hr : r = [] by
    subst hr
    rw [List.append_nil] at h1
    rw [h1]
    exact ⟨h2, h3⟩
  rcases List.eq_nil_or_concat r with rfl | ⟨r', x, rfl⟩
  · rfl
  · exfalso
    have hin := C27_inside ms ms' content toks hcr h t ht
    rcases hb with h0 | ⟨b, hb, hs, h35⟩
    · rw [h0] at h1; simp at h1
    · have hlen := congrArg List.length h1
      simp at hlen
      have hx : (content.take t.start)[t.start - 1]? = some x := by
        rw [h1, List.concat_eq_append, ← List.append_assoc, List.getElem?_append_right (by simp; omega)]
        have : t.start - 1 - (q ++ r').length = 0 := by simp; omega
        rw [this]
        rfl
      rw [List.getElem?_take, if_pos (by omega), hb] at hx
      injection hx with hx
      subst hx
      rcases h4 b (by simp) with h | ⟨h, _⟩
      · rw [hs] at h; cases h
      · exact h35 h

end Verif.Lex
