import Verif.Model.Strip
/-!
# C55: stripping formatting

`parser_strip_formatting` is applied to the texts of types, attributes, default values, definitions and so on: a run of blanks becomes
one space, literals and comments are kept.
-/
namespace Verif.Strip

/-! ## Specification -/

/-- A text between quotes `q`: bytes other than the quote and the backslash, and pairs of a backslash and any byte. -/
inductive Inner (q : UInt8) : Bytes → Prop
  | nil : Inner q []
  | byte {b r} : b ≠ q → b ≠ 92 → Inner q r → Inner q (b :: r)
  | escape {b r} : Inner q r → Inner q (92 :: b :: r)

/-- A literal: it does not end with a backslash (see `C55_escaped_backslash`). -/
inductive Literal : Bytes → Prop
  | string {b} : Inner 34 b → b.getLast? ≠ some 92 → Literal (34 :: b ++ [34])
  | char {b} : Inner 39 b → b.getLast? ≠ some 92 → Literal (39 :: b ++ [39])

/-- A blank: space, tab, newline, carriage return, form feed, vertical tab. -/
def Blank (b : UInt8) : Prop := charIsSpace b = true

instance (b : UInt8) : Decidable (Blank b) := by unfold Blank; infer_instance

/-- A byte of a word: not a blank, a quote, a slash or a backslash. -/
def Letter (b : UInt8) : Prop := ¬ Blank b ∧ b ≠ 34 ∧ b ≠ 39 ∧ b ≠ 47 ∧ b ≠ 92

instance (b : UInt8) : Decidable (Letter b) := by unfold Letter; infer_instance

/-- Some text that is kept as it is: letters, slashes that begin no comment, literals, and block comments that are complete. -/
inductive Solid : Bytes → Prop
  | letter {b} : Letter b → Solid [b]
  | literal {b} : Literal b → Solid b
  | slash {b} : Letter b → b ≠ 42 → Solid [47, b]
  | comment {b} : ¬ [42, 47] <:+: (42 :: b ++ [42]) → Solid ([47, 42] ++ b ++ [42, 47])

/-- A word: solid texts one after the other. -/
inductive Word : Bytes → Prop
  | one {b} : Solid b → Word b
  | cons {a b} : Solid a → Word b → Word (a ++ b)

/-- A run of blanks that becomes one space: a single space; or tabs and newlines; or a run whose first byte is neither a tab nor a newline. -/
inductive Gap : Bytes → Prop
  | space : Gap [32]
  | tabs {g} : g ≠ [] → (∀ b ∈ g, b = 9 ∨ b = 10) → Gap g
  | run {a b g} : Blank a → a ≠ 9 → a ≠ 10 → (a = 13 → b ≠ 10) → Blank b → (∀ x ∈ g, Blank x) → Gap (a :: b :: g)

/-! ## Proofs -/

/-- The scanner is in front of `rest`, and what has been put out so far (with what is still to be copied) is `v`. -/
structure At (raw : Bytes) (s : St) (v rest : Bytes) : Prop where
  rest : raw.drop s.pos = rest
  pos : s.pos ≤ raw.length
  cut : s.cut ≤ s.pos
  keep : s.keep = false
  out : s.out ++ cutText raw s.cut s.pos = v

/-- The loop comes from one state to another, with at most one turn for every byte. -/
def Reaches (raw : Bytes) (s s' : St) : Prop :=
  ∃ n, s.pos + n ≤ s'.pos ∧ ∀ fuel, loop raw false (fuel + n) s = loop raw false fuel s'

theorem Reaches.refl {raw : Bytes} {s : St} : Reaches raw s s := ⟨0, Nat.le_refl _, fun _ => rfl⟩

theorem Reaches.trans {raw : Bytes} {s t u : St} (h : Reaches raw s t) (g : Reaches raw t u) : Reaches raw s u := by
  obtain ⟨n, h1, h2⟩ := h
  obtain ⟨m, g1, g2⟩ := g
  refine ⟨m + n, by omega, fun fuel => ?_⟩
  rw [← Nat.add_assoc, h2, g2]

variable {raw : Bytes} {s : St} {v r : Bytes} {b : UInt8}

theorem At.lt (h : At raw s v (b :: r)) : s.pos < raw.length := by
  have := congrArg List.length h.rest
  simp only [List.length_drop, List.length_cons] at this
  omega

theorem At.byte (h : At raw s v (b :: r)) : raw[s.pos]? = some b := by
  have : (raw.drop s.pos)[0]? = some b := by rw [h.rest]; rfl
  rw [List.getElem?_drop] at this
  simpa using this

theorem At.nth (h : At raw s v r) (i : Nat) : raw[s.pos + i]? = r[i]? := by
  rw [← h.rest, List.getElem?_drop]

theorem step_reaches (h : At raw s v (b :: r)) (hp : s.pos < (step raw false s b).pos) : Reaches raw s (step raw false s b) := by
  refine ⟨1, hp, fun fuel => ?_⟩
  have hlt := h.lt
  rw [loop, if_neg (by omega), h.byte]

theorem cutText_add {cut p n : Nat} (h : cut ≤ p) : cutText raw cut (p + n) = cutText raw cut p ++ (raw.drop p).take n := by
  unfold cutText
  rw [show p + n - cut = (p - cut) + n by omega, List.take_add, List.drop_drop, show cut + (p - cut) = p by omega]

/-- The scanner moves over `x`, which is copied later or now. -/
theorem At.copy {x : Bytes} (h : At raw s v (x ++ r)) : At raw { s with pos := s.pos + x.length } (v ++ x) r ∧
    At raw (s.flush raw (s.pos + x.length)) (v ++ x) r := by
  have hl := congrArg List.length h.rest
  simp only [List.length_drop, List.length_append] at hl
  have hp := h.pos
  have hc := h.cut
  have hd : raw.drop (s.pos + x.length) = r := by rw [← List.drop_drop, h.rest, List.drop_left]
  have ht : cutText raw s.cut (s.pos + x.length) = cutText raw s.cut s.pos ++ x := by
    rw [cutText_add hc, h.rest, List.take_left]
  refine ⟨⟨hd, by simp only; omega, by simp only; omega, h.keep, ?_⟩, ⟨hd, by simp only [St.flush]; omega, Nat.le_refl _, h.keep, ?_⟩⟩
  · simp only
    rw [ht, ← List.append_assoc, h.out]
  · simp only [St.flush]
    rw [ht, ← List.append_assoc, h.out]
    simp [cutText]

theorem step_plain (h : At raw s v (b :: r)) (h1 : b ≠ 34) (h2 : b ≠ 39) (h3 : b = 47 → r[0]? ≠ some 42 ∧ r[0]? ≠ some 47) (h4 : b ≠ 9)
    (h5 : b ≠ 10) (h6 : b ≠ 92) (h7 : ¬ (Blank b ∧ ∃ c ∈ r[0]?, Blank c)) : step raw false s b = { s with pos := s.pos + 1 } := by
  have hn : raw[s.pos + 1]? = r[0]? := by
    have := h.nth 1
    simpa using this
  unfold step
  simp only [hn]
  have h8 : ¬ (charIsSpace b ∧ r[0]?.any charIsSpace) := by
    rintro ⟨ha, hb⟩
    refine h7 ⟨ha, ?_⟩
    revert hb
    cases r[0]? with
    | none => simp
    | some c => simp [Blank]
  rw [if_neg h1, if_neg h2, if_neg (fun e => (h3 e.1).1 e.2), if_neg (fun e => (h3 e.1).2 e.2), if_neg h4, if_neg, if_neg h5, if_neg h6, if_neg h8]
  rintro ⟨rfl, e⟩
  exact h7 ⟨by decide, 10, e, by decide⟩

theorem plain_run (h : At raw s v (b :: r)) (h1 : b ≠ 34) (h2 : b ≠ 39) (h3 : b = 47 → r[0]? ≠ some 42 ∧ r[0]? ≠ some 47) (h4 : b ≠ 9)
    (h5 : b ≠ 10) (h6 : b ≠ 92) (h7 : ¬ (Blank b ∧ ∃ c ∈ r[0]?, Blank c)) : ∃ s', Reaches raw s s' ∧ At raw s' (v ++ [b]) r := by
  have hs := step_plain h h1 h2 h3 h4 h5 h6 h7
  refine ⟨_, step_reaches h (by rw [hs]; simp only; omega), ?_⟩
  rw [hs]
  exact (At.copy (x := [b]) h).1

theorem letter_run (h : At raw s v (b :: r)) (hb : Letter b) : ∃ s', Reaches raw s s' ∧ At raw s' (v ++ [b]) r :=
  plain_run h hb.2.1 hb.2.2.1 (fun e => absurd e hb.2.2.2.1) (fun e => by rw [e] at hb; exact hb.1 (by decide))
    (fun e => by rw [e] at hb; exact hb.1 (by decide)) hb.2.2.2.2 (fun e => hb.1 e.1)

/-! ### Literals -/

theorem inner_string {x : Bytes} (hx : Inner 34 x) : ∀ {p fuel : Nat}, raw.drop p = x ++ 34 :: r → 1 ≤ p → x.length < fuel →
    (x = [] → raw[p - 1]? ≠ some 92) → x.getLast? ≠ some 92 → stringEnd raw fuel p = p + x.length := by
  have byteAt : ∀ {p : Nat} {c : UInt8} {l : Bytes}, raw.drop p = c :: l → raw[p]? = some c := by
    intro p c l h
    have : (raw.drop p)[0]? = some c := by rw [h]; rfl
    rw [List.getElem?_drop] at this
    simpa using this
  induction hx with
  | nil =>
    intro p fuel hd _ hf hp _
    cases fuel with
    | zero => omega
    | succ fuel =>
      unfold stringEnd
      rw [byteAt hd]
      simp only [List.length_nil, Nat.add_zero]
      rw [if_pos ⟨trivial, hp rfl⟩]
  | @byte c x h1 h2 _ ih =>
    intro p fuel hd hp hf _ hl
    cases fuel with
    | zero => omega
    | succ fuel =>
      unfold stringEnd
      rw [byteAt hd]
      simp only
      rw [if_neg (fun e => h1 e.1), if_neg (fun e => h2 e.1)]
      have hd' : raw.drop (p + 1) = x ++ 34 :: r := by rw [← List.drop_drop, hd]; rfl
      rw [ih hd' (by omega) (by simpa using hf) (fun _ => by rw [Nat.add_sub_cancel, byteAt hd]; simpa using h2) ?_]
      · simp only [List.length_cons]; omega
      · intro e
        apply hl
        cases x with
        | nil => cases e
        | cons => rw [List.getLast?_cons_cons]; exact e
  | @escape c x _ ih =>
    intro p fuel hd hp hf _ hl
    cases fuel with
    | zero => omega
    | succ fuel =>
      unfold stringEnd
      rw [byteAt hd]
      simp only
      have hlen := congrArg List.length hd
      simp only [List.length_drop, List.length_append, List.length_cons] at hlen
      rw [if_neg (fun e => by exact absurd e.1 (by decide)), if_pos ⟨trivial, by omega⟩]
      have hd' : raw.drop (p + 2) = x ++ 34 :: r := by rw [← List.drop_drop, hd]; rfl
      have hd1 : raw.drop (p + 1) = c :: (x ++ 34 :: r) := by rw [← List.drop_drop, hd]; rfl
      simp only [List.length_cons] at hf
      rw [ih hd' (by omega) (by omega) (fun e => ?_) ?_]
      · simp only [List.length_cons]; omega
      · intro e
        apply hl
        cases x with
        | nil => cases e
        | cons => rw [List.getLast?_cons_cons, List.getLast?_cons_cons]; exact e
      · rw [show p + 2 - 1 = p + 1 by omega, byteAt hd1]
        subst e
        simpa using hl

theorem inner_char {x : Bytes} (hx : Inner 39 x) : ∀ {p fuel : Nat}, raw.drop p = x ++ 39 :: r → 1 ≤ p → x.length < fuel →
    (x = [] → raw[p - 1]? ≠ some 92) → x.getLast? ≠ some 92 → charEnd raw fuel p = p + x.length := by
  have byteAt : ∀ {p : Nat} {c : UInt8} {l : Bytes}, raw.drop p = c :: l → raw[p]? = some c := by
    intro p c l h
    have : (raw.drop p)[0]? = some c := by rw [h]; rfl
    rw [List.getElem?_drop] at this
    simpa using this
  induction hx with
  | nil =>
    intro p fuel hd _ hf hp _
    cases fuel with
    | zero => omega
    | succ fuel =>
      unfold charEnd
      rw [byteAt hd]
      simp only [List.length_nil, Nat.add_zero]
      rw [if_pos ⟨trivial, hp rfl⟩]
  | @byte c x h1 h2 _ ih =>
    intro p fuel hd hp hf _ hl
    cases fuel with
    | zero => omega
    | succ fuel =>
      unfold charEnd
      rw [byteAt hd]
      simp only
      rw [if_neg (fun e => h1 e.1)]
      have hd' : raw.drop (p + 1) = x ++ 39 :: r := by rw [← List.drop_drop, hd]; rfl
      rw [ih hd' (by omega) (by simpa using hf) (fun _ => by rw [Nat.add_sub_cancel, byteAt hd]; simpa using h2) ?_]
      · simp only [List.length_cons]; omega
      · intro e
        apply hl
        cases x with
        | nil => cases e
        | cons => rw [List.getLast?_cons_cons]; exact e
  | @escape c x _ ih =>
    intro p fuel hd hp hf _ hl
    have hd' : raw.drop (p + 2) = x ++ 39 :: r := by rw [← List.drop_drop, hd]; rfl
    have hd1 : raw.drop (p + 1) = c :: (x ++ 39 :: r) := by rw [← List.drop_drop, hd]; rfl
    simp only [List.length_cons] at hf
    cases fuel with
    | zero => omega
    | succ fuel =>
      cases fuel with
      | zero => omega
      | succ fuel =>
        unfold charEnd
        rw [byteAt hd]
        simp only
        rw [if_neg (fun e => by exact absurd e.1 (by decide))]
        unfold charEnd
        rw [byteAt hd1]
        simp only
        rw [if_neg (fun e => by rw [Nat.add_sub_cancel, byteAt hd] at e; exact e.2 rfl)]
        rw [ih hd' (by omega) (by omega) (fun e => ?_) ?_]
        · simp only [List.length_cons]; omega
        · intro e
          apply hl
          cases x with
          | nil => cases e
          | cons => rw [List.getLast?_cons_cons, List.getLast?_cons_cons]; exact e
        · rw [show p + 1 + 1 - 1 = p + 1 by omega, byteAt hd1]
          subst e
          simpa using hl

theorem literal_run {x : Bytes} (hx : Literal x) (h : At raw s v (x ++ r)) : ∃ s', Reaches raw s s' ∧ At raw s' (v ++ x) r := by
  have hc := h.copy.2
  have hl := congrArg List.length h.rest
  simp only [List.length_drop, List.length_append] at hl
  have hp := h.pos
  cases hx with
  | @string x hi hlast =>
    have h' : At raw s v (34 :: (x ++ 34 :: r)) := by simpa using h
    have hd : raw.drop (s.pos + 1) = x ++ 34 :: r := by rw [← List.drop_drop, h'.rest]; rfl
    simp only [List.length_cons, List.length_append, List.length_nil] at hl
    have he := inner_string hi (fuel := raw.length + 1) hd (by omega) (by omega) (fun _ => by rw [Nat.add_sub_cancel, h'.byte]; decide) hlast
    have hs : step raw false s 34 = s.flush raw (s.pos + (34 :: x ++ [34]).length) := by
      unfold step
      simp only [if_true, he]
      rw [if_pos (by omega)]
      simp only [List.length_cons, List.length_append, List.length_nil]
      congr 1
      omega
    rw [← hs] at hc
    exact ⟨_, step_reaches h' (by rw [hs]; simp [St.flush]), hc⟩
  | @char x hi hlast =>
    have h' : At raw s v (39 :: (x ++ 39 :: r)) := by simpa using h
    have hd : raw.drop (s.pos + 1) = x ++ 39 :: r := by rw [← List.drop_drop, h'.rest]; rfl
    simp only [List.length_cons, List.length_append, List.length_nil] at hl
    have he := inner_char hi (fuel := raw.length + 1) hd (by omega) (by omega) (fun _ => by rw [Nat.add_sub_cancel, h'.byte]; decide) hlast
    have hs : step raw false s 39 = s.flush raw (s.pos + (39 :: x ++ [39]).length) := by
      unfold step
      rw [if_neg (by decide)]
      simp only [if_true, he]
      rw [if_pos (by omega)]
      simp only [List.length_cons, List.length_append, List.length_nil]
      congr 1
      omega
    rw [← hs] at hc
    exact ⟨_, step_reaches h' (by rw [hs]; simp [St.flush]), hc⟩

/-! ### Comments -/

theorem block_end {x : Bytes} : ∀ {p fuel : Nat}, raw.drop p = x ++ 42 :: 47 :: r → x.length < fuel → ¬ [42, 47] <:+: (x ++ [42]) →
    blockEnd raw fuel p = p + x.length := by
  induction x with
  | nil =>
    intro p fuel hd hf _
    cases fuel with
    | zero => simp at hf
    | succ fuel =>
      have h0 : raw[p]? = some 42 := by
        have : (raw.drop p)[0]? = some 42 := by rw [hd]; rfl
        rw [List.getElem?_drop] at this; simpa using this
      have h1 : raw[p + 1]? = some 47 := by
        have : (raw.drop p)[1]? = some 47 := by rw [hd]; rfl
        rw [List.getElem?_drop] at this; simpa using this
      unfold blockEnd
      rw [if_neg (fun e => e.2 ⟨h0, h1⟩)]
      rfl
  | cons c x ih =>
    intro p fuel hd hf hn
    cases fuel with
    | zero => omega
    | succ fuel =>
      have hlen := congrArg List.length hd
      simp only [List.length_drop, List.length_append, List.length_cons] at hlen
      have h0 : raw[p]? = some c := by
        have : (raw.drop p)[0]? = some c := by rw [hd]; rfl
        rw [List.getElem?_drop] at this; simpa using this
      have h1 : raw[p + 1]? = (x ++ 42 :: 47 :: r)[0]? := by
        have : (raw.drop p)[1]? = (x ++ 42 :: 47 :: r)[0]? := by rw [hd]; rfl
        rw [List.getElem?_drop] at this; simpa using this
      unfold blockEnd
      have hne : ¬ (raw[p]? = some 42 ∧ raw[p + 1]? = some 47) := by
        rw [h0, h1]
        rintro ⟨e0, e1⟩
        cases e0
        cases x with
        | nil => cases e1
        | cons d x => cases e1; exact hn ⟨[], x ++ [42], by simp⟩
      rw [if_pos ⟨by omega, hne⟩]
      have hd' : raw.drop (p + 1) = x ++ 42 :: 47 :: r := by rw [← List.drop_drop, hd]; rfl
      rw [ih hd' (by simpa using hf) (fun e => hn (e.trans (List.suffix_cons c _).isInfix)), List.length_cons]
      omega

theorem comment_run {x : Bytes} (hx : ¬ [42, 47] <:+: (42 :: x ++ [42])) (h : At raw s v ([47, 42] ++ x ++ [42, 47] ++ r)) :
    ∃ s', Reaches raw s s' ∧ At raw s' (v ++ ([47, 42] ++ x ++ [42, 47])) r := by
  have hc := h.copy.2
  have h' : At raw s v (47 :: (42 :: x ++ 42 :: 47 :: r)) := by simpa using h
  have hl := congrArg List.length h'.rest
  simp only [List.length_drop, List.length_append, List.length_cons] at hl
  have hp := h.pos
  have he : blockEnd raw (raw.length + 1) s.pos = s.pos + (47 :: 42 :: x).length := by
    refine block_end (r := r) (by rw [h'.rest]; simp) (by simp only [List.length_cons]; omega) ?_
    rintro ⟨a, c, e⟩
    cases a with
    | nil => simp at e
    | cons a0 a => exact hx ⟨a, c, by simp at e ⊢; exact e.2⟩
  have h1 : raw[s.pos + 1]? = some 42 := by have := h'.nth 1; simpa using this
  have hs : step raw false s 47 = s.flush raw (s.pos + ([47, 42] ++ x ++ [42, 47]).length) := by
    unfold step
    rw [if_neg (by decide), if_neg (by decide)]
    simp only [h1, and_self, if_true, he, List.length_append, List.length_cons, List.length_nil]
    congr 1
    omega
  rw [← hs] at hc
  exact ⟨_, step_reaches h' (by rw [hs]; simp [St.flush]), hc⟩

/-! ### Words and gaps -/

theorem solid_run {x : Bytes} (hx : Solid x) (h : At raw s v (x ++ r)) : ∃ s', Reaches raw s s' ∧ At raw s' (v ++ x) r := by
  cases hx with
  | letter hb => exact letter_run h hb
  | literal hl => exact literal_run hl h
  | @slash b hb h42 =>
    obtain ⟨s1, r1, a1⟩ := plain_run (b := 47) (r := b :: r) h (by decide) (by decide)
      (fun _ => ⟨fun e => h42 (Option.some.inj e), fun e => hb.2.2.2.1 (Option.some.inj e)⟩) (by decide) (by decide) (by decide)
      (fun e => absurd e.1 (by decide))
    obtain ⟨s2, r2, a2⟩ := letter_run a1 hb
    exact ⟨s2, r1.trans r2, by simpa using a2⟩
  | comment hc => exact comment_run hc h

theorem word_run {x : Bytes} (hx : Word x) : ∀ {s : St} {v : Bytes}, At raw s v (x ++ r) → ∃ s', Reaches raw s s' ∧ At raw s' (v ++ x) r := by
  induction hx with
  | one hb => exact fun h => solid_run hb h
  | cons ha _ ih =>
    intro s v h
    rw [List.append_assoc] at h
    obtain ⟨s1, r1, a1⟩ := solid_run ha h
    obtain ⟨s2, r2, a2⟩ := ih a1
    exact ⟨s2, r1.trans r2, by simpa using a2⟩

theorem Solid.ends {x : Bytes} (h : Solid x) : (∃ b ∈ x[0]?, ¬ Blank b) ∧ ∃ b ∈ x.getLast?, ¬ Blank b := by
  cases h with
  | letter hb => exact ⟨⟨_, rfl, hb.1⟩, ⟨_, rfl, hb.1⟩⟩
  | literal hl =>
    cases hl with
    | string => exact ⟨⟨34, rfl, by decide⟩, ⟨34, by rw [Option.mem_def, List.getLast?_append]; rfl, by decide⟩⟩
    | char => exact ⟨⟨39, rfl, by decide⟩, ⟨39, by rw [Option.mem_def, List.getLast?_append]; rfl, by decide⟩⟩
  | slash hb => exact ⟨⟨47, rfl, by decide⟩, ⟨_, rfl, hb.1⟩⟩
  | comment => exact ⟨⟨47, rfl, by decide⟩, ⟨47, by rw [Option.mem_def, List.getLast?_append]; rfl, by decide⟩⟩

theorem Word.ends {x : Bytes} (h : Word x) : (∃ b ∈ x[0]?, ¬ Blank b) ∧ ∃ b ∈ x.getLast?, ¬ Blank b := by
  induction h with
  | one h => exact h.ends
  | @cons a b ha hb ih =>
    obtain ⟨⟨c, hc, hn⟩, -⟩ := ha.ends
    obtain ⟨-, ⟨d, hd, hm⟩⟩ := ih
    refine ⟨⟨c, ?_, hn⟩, ⟨d, ?_, hm⟩⟩
    · rw [Option.mem_def] at hc ⊢
      rw [List.getElem?_append_left (by rw [List.getElem?_eq_some_iff] at hc; exact hc.1)]
      exact hc
    · rw [Option.mem_def] at hd ⊢
      rw [List.getLast?_append, hd]
      rfl

theorem blank_at {n : Nat} {x : Bytes} (h : At raw s v (x ++ r)) (hn : x.length = n) : At raw (s.blank raw n) (addSpace v) r := by
  have hl := congrArg List.length h.rest
  simp only [List.length_drop, List.length_append] at hl
  have hp := h.pos
  refine ⟨?_, by simp only [St.blank]; omega, Nat.le_refl _, h.keep, ?_⟩
  · simp only [St.blank]
    rw [← List.drop_drop, h.rest, ← hn, List.drop_left]
  · simp only [St.blank]
    rw [h.out]
    simp [cutText]

theorem addSpace_of (h : v.getLast? ≠ some 32) : addSpace v = v ++ [32] := by unfold addSpace; rw [if_neg h]

theorem addSpace_twice : addSpace (v ++ [32]) = v ++ [32] := by unfold addSpace; simp

theorem tab_run (h : At raw s v (b :: r)) (hb : b = 9 ∨ b = 10) : ∃ s', Reaches raw s s' ∧ At raw s' (addSpace v) r := by
  have hs : step raw false s b = s.blank raw 1 := by
    rcases hb with rfl | rfl
    · unfold step
      rw [if_neg (by decide), if_neg (by decide), if_neg (by simp), if_neg (by simp), if_pos rfl]
    · unfold step
      rw [if_neg (by decide), if_neg (by decide), if_neg (by simp), if_neg (by simp), if_neg (by decide), if_neg (by simp), if_pos rfl, if_neg]
      rw [h.keep]
      decide
  refine ⟨_, step_reaches h (by rw [hs]; simp [St.blank]), ?_⟩
  rw [hs]
  exact blank_at (x := [b]) h rfl

theorem tabs_run {g : Bytes} : ∀ {s : St} {v : Bytes}, At raw s (v ++ [32]) (g ++ r) → (∀ b ∈ g, b = 9 ∨ b = 10) →
    ∃ s', Reaches raw s s' ∧ At raw s' (v ++ [32]) r := by
  induction g with
  | nil => exact fun h _ => ⟨_, .refl, h⟩
  | cons b g ih =>
    intro s v h hg
    obtain ⟨s1, r1, a1⟩ := tab_run (b := b) h (hg b List.mem_cons_self)
    rw [addSpace_twice] at a1
    obtain ⟨s2, r2, a2⟩ := ih a1 fun c hc => hg c (List.mem_cons_of_mem _ hc)
    exact ⟨s2, r1.trans r2, a2⟩

theorem space_end {g : Bytes} : ∀ {p fuel : Nat}, raw.drop p = g ++ r → g.length < fuel → (∀ x ∈ g, Blank x) → (∀ c, r[0]? = some c → ¬ Blank c) →
    spaceEnd raw fuel p = p + g.length := by
  induction g with
  | nil =>
    intro p fuel hd hf _ hr
    cases fuel with
    | zero => simp at hf
    | succ fuel =>
      have h0 : raw[p]? = r[0]? := by
        have : (raw.drop p)[0]? = r[0]? := by rw [hd]; rfl
        rw [List.getElem?_drop] at this; simpa using this
      unfold spaceEnd
      rw [h0]
      cases hq : r[0]? with
      | none => rfl
      | some c => have := hr c hq; unfold Blank at this; simp only; rw [if_neg this]; rfl
  | cons c g ih =>
    intro p fuel hd hf hg hr
    cases fuel with
    | zero => omega
    | succ fuel =>
      have h0 : raw[p]? = some c := by
        have : (raw.drop p)[0]? = some c := by rw [hd]; rfl
        rw [List.getElem?_drop] at this; simpa using this
      unfold spaceEnd
      rw [h0]
      simp only
      have hc : charIsSpace c = true := hg c List.mem_cons_self
      rw [if_pos hc, ih (by rw [← List.drop_drop, hd]; rfl) (by simpa using hf) (fun x hx => hg x (List.mem_cons_of_mem _ hx)) hr,
        List.length_cons]
      omega

theorem gap_run {g : Bytes} (hg : Gap g) (h : At raw s v (g ++ r)) (hv : v.getLast? ≠ some 32) (hr : ∀ c, r[0]? = some c → ¬ Blank c) :
    ∃ s', Reaches raw s s' ∧ At raw s' (v ++ [32]) r := by
  cases hg with
  | space =>
    exact plain_run h (by decide) (by decide) (fun e => absurd e (by decide)) (by decide) (by decide) (by decide)
      (fun ⟨_, c, hc, hb⟩ => hr c hc hb)
  | tabs hne hg =>
    cases g with
    | nil => exact absurd rfl hne
    | cons b g =>
      obtain ⟨s1, r1, a1⟩ := tab_run (b := b) h (hg b List.mem_cons_self)
      rw [addSpace_of hv] at a1
      obtain ⟨s2, r2, a2⟩ := tabs_run a1 fun c hc => hg c (List.mem_cons_of_mem _ hc)
      exact ⟨s2, r1.trans r2, a2⟩
  | @run a b g ha h9 h10 h13 hb hg =>
    have hl := congrArg List.length h.rest
    simp only [List.length_drop, List.length_append, List.length_cons] at hl
    have hp := h.pos
    have h1 : raw[s.pos + 1]? = some b := by have := h.nth 1; simpa using this
    have hd : raw.drop (s.pos + 1) = (b :: g) ++ r := by rw [← List.drop_drop, h.rest]; rfl
    have he := space_end (fuel := raw.length + 1) hd (by simp only [List.length_cons]; omega)
      (fun x hx => (List.mem_cons.1 hx).elim (fun e => e ▸ hb) (hg x)) hr
    have hne : ∀ x : UInt8, ¬ Blank x → a ≠ x := fun x hx e => hx (e ▸ ha)
    have hs : step raw false s a = { s with pos := s.pos + 1 + (b :: g).length, cut := s.pos + 1 + (b :: g).length, out := addSpace v } := by
      unfold step
      rw [if_neg (hne 34 (by decide)), if_neg (hne 39 (by decide)), if_neg (fun e => hne 47 (by decide) e.1), if_neg (fun e => hne 47 (by decide) e.1),
        if_neg h9, if_neg (fun e => h13 e.1 (by rw [h1] at e; exact Option.some.inj e.2)), if_neg h10, if_neg (hne 92 (by decide)),
        if_pos ⟨ha, by rw [h1]; exact hb⟩]
      simp only [he, h.out]
    refine ⟨_, step_reaches (b := a) h (by rw [hs]; simp only; omega), ?_⟩
    rw [hs]
    refine ⟨?_, by simp only [List.length_cons]; omega, Nat.le_refl _, h.keep, ?_⟩
    · simp only
      rw [← List.drop_drop, hd, List.drop_left]
    · simp only
      rw [addSpace_of hv]
      simp [cutText]

/-- The text between the words of a stripped text. -/
def joined : List (Bytes × Bytes) → Bytes
  | [] => []
  | (_, w) :: l => 32 :: w ++ joined l

/-- The text of the gaps and words. -/
def spread : List (Bytes × Bytes) → Bytes
  | [] => []
  | (g, w) :: l => g ++ w ++ spread l

theorem spread_run {l : List (Bytes × Bytes)} : ∀ {s : St} {v : Bytes}, At raw s v (spread l) → (∀ x ∈ l, Gap x.1 ∧ Word x.2) → v.getLast? ≠ some 32 →
    ∃ s', Reaches raw s s' ∧ At raw s' (v ++ joined l) [] := by
  induction l with
  | nil => exact fun h _ _ => ⟨_, .refl, by simpa [joined, spread] using h⟩
  | cons x l ih =>
    intro s v h hl hv
    obtain ⟨g, w⟩ := x
    obtain ⟨hg, hw⟩ := hl _ List.mem_cons_self
    obtain ⟨⟨c, hc, hcb⟩, ⟨d, hd, hdb⟩⟩ := hw.ends
    simp only [spread, List.append_assoc] at h
    obtain ⟨s1, r1, a1⟩ := gap_run hg h hv (fun e he => by
      rw [List.getElem?_append_left (by rw [Option.mem_def, List.getElem?_eq_some_iff] at hc; exact hc.1)] at he
      rw [Option.mem_def, he] at hc
      cases hc
      exact hcb)
    obtain ⟨s2, r2, a2⟩ := word_run hw a1
    obtain ⟨s3, r3, a3⟩ := ih a2 (fun y hy => hl y (List.mem_cons_of_mem _ hy)) (by
      rw [List.getLast?_append, hd]
      simp only [Option.some_or, ne_eq, Option.some.injEq]
      intro e
      exact hdb (e ▸ by decide))
    exact ⟨s3, r1.trans (r2.trans r3), by simpa [joined] using a3⟩

/-- C55: words separated by runs of blanks are put out with one space between them, words as they are. One leading space is dropped. -/
theorem C55_words {w : Bytes} {l : List (Bytes × Bytes)} (hw : Word w) (hl : ∀ x ∈ l, Gap x.1 ∧ Word x.2) :
    strip (w ++ spread l) = .ok (w ++ joined l) ∧ strip (32 :: (w ++ spread l)) = .ok (w ++ joined l) := by
  obtain ⟨⟨c, hc, hcb⟩, ⟨d, hd, hdb⟩⟩ := hw.ends
  rw [Option.mem_def] at hc hd
  have key : ∀ {raw : Bytes} {p : Nat}, raw.drop p = w ++ spread l → p ≤ raw.length → ∃ s', loop raw false (raw.length + 2) ⟨p, p, false, []⟩ = .ok s' ∧
      (if s'.cut < raw.length then s'.out ++ cutText raw s'.cut raw.length else s'.out) = w ++ joined l := by
    intro raw p hp hlen
    have h0 : At raw ⟨p, p, false, []⟩ [] (w ++ spread l) := ⟨hp, hlen, Nat.le_refl _, rfl, by simp [cutText]⟩
    obtain ⟨s1, r1, a1⟩ := word_run hw h0
    obtain ⟨s2, r2, a2⟩ := spread_run a1 hl (by
      rw [List.nil_append, hd]
      simp only [ne_eq, Option.some.injEq]
      intro e
      exact hdb (e ▸ by decide))
    obtain ⟨n, hn, hrun⟩ := r1.trans r2
    have hend : s2.pos = raw.length := by
      have := congrArg List.length a2.rest
      have := a2.pos
      simp only [List.length_drop, List.length_nil] at *
      omega
    refine ⟨s2, ?_, ?_⟩
    · obtain ⟨m, hm⟩ : ∃ m, raw.length + 2 = m + 1 + n := ⟨raw.length + 1 - n, by simp only at hn; omega⟩
      rw [hm, hrun, loop, if_pos hend]
    · have ho := a2.out
      rw [hend] at ho
      split
      · simpa using ho
      · rename_i hcut
        rw [show cutText raw s2.cut raw.length = [] by
          unfold cutText; rw [show raw.length - s2.cut = 0 by omega]; simp] at ho
        simpa using ho
  refine ⟨?_, ?_⟩
  · obtain ⟨s', h1, h2⟩ := key (raw := w ++ spread l) (p := 0) rfl (Nat.zero_le _)
    unfold strip
    rw [if_neg (by cases w <;> simp_all)]
    simp only
    rw [List.getElem?_append_left (by rw [List.getElem?_eq_some_iff] at hc; exact hc.1), hc,
      if_neg (fun e => hcb (by rw [Option.some.inj e]; decide)), h1, Res.ok_bind, h2]
  · obtain ⟨s', h1, h2⟩ := key (raw := 32 :: (w ++ spread l)) (p := 1) rfl (by simp)
    unfold strip
    rw [if_neg (by simp)]
    simp only [List.getElem?_cons_zero, if_true]
    rw [h1, Res.ok_bind, h2]

/-- A stripped text is stripped again to itself. -/
theorem C55_again {w : Bytes} {l : List (Bytes × Bytes)} (hw : Word w) (hl : ∀ x ∈ l, Word x.2) : strip (w ++ joined l) = .ok (w ++ joined l) := by
  have : ∀ l : List (Bytes × Bytes), joined l = spread (l.map fun x => ([32], x.2)) ∧ joined (l.map fun x => ([32], x.2)) = joined l := by
    intro l
    induction l with
    | nil => exact ⟨rfl, rfl⟩
    | cons x l ih => exact ⟨by simp only [joined, spread, List.map_cons, ih.1]; rfl, by simp only [joined, List.map_cons, ih.2]⟩
  have h := (C55_words (l := l.map fun x => ([32], x.2)) hw (fun x hx => by
    obtain ⟨y, hy, rfl⟩ := List.mem_map.1 hx
    exact ⟨.space, hl y hy⟩)).1
  rw [← (this l).1, (this l).2] at h
  exact h

/-! ### A comment that is not closed -/

theorem block_open {raw : Bytes} : ∀ {fuel p : Nat}, p + 1 ≤ raw.length → raw.length < fuel + p → ¬ [42, 47] <:+: raw.drop p →
    raw.length ≤ blockEnd raw fuel p + 1 := by
  intro fuel
  induction fuel with
  | zero => intro p h1 h2 _; simp only [blockEnd]; omega
  | succ fuel ih =>
    intro p h1 h2 h3
    unfold blockEnd
    by_cases hp : p + 1 < raw.length
    · have hno : ¬ (raw[p]? = some 42 ∧ raw[p + 1]? = some 47) := by
        rintro ⟨e1, e2⟩
        refine h3 ⟨[], raw.drop (p + 2), ?_⟩
        rw [List.drop_eq_getElem_cons (by omega : p < raw.length), List.drop_eq_getElem_cons hp]
        rw [List.getElem?_eq_getElem (by omega)] at e1 e2
        rw [Option.some.inj e1, Option.some.inj e2]
        rfl
      rw [if_pos ⟨hp, hno⟩]
      refine ih (by omega) (by omega) ?_
      rintro ⟨a, b, e⟩
      refine h3 ⟨raw[p] :: a, b, ?_⟩
      rw [List.drop_eq_getElem_cons (by omega), ← e]
      simp
    · rw [if_neg (fun hh => hp hh.1)]
      omega

/-- C55 is false of a text with a comment that is not closed: the function reads behind the end of the text. -/
theorem C55_open_comment {w b : Bytes} (hw : Word w) (hb : ¬ [42, 47] <:+: 42 :: b) : strip (w ++ [47, 42] ++ b) = .ub := by
  obtain ⟨⟨c, hc, hcb⟩, -⟩ := hw.ends
  rw [Option.mem_def] at hc
  obtain ⟨raw, hraw⟩ : ∃ raw, raw = w ++ [47, 42] ++ b := ⟨_, rfl⟩
  rw [← hraw]
  have h0 : At raw ⟨0, 0, false, []⟩ [] (w ++ (47 :: 42 :: b)) := ⟨by rw [hraw]; simp, Nat.zero_le _, Nat.le_refl _, rfl, by simp [cutText]⟩
  obtain ⟨s1, ⟨n, hn, hrun⟩, a1⟩ := word_run hw h0
  have hl := congrArg List.length a1.rest
  simp only [List.length_drop, List.length_cons] at hl
  have h1 : raw[s1.pos + 1]? = some 42 := by have := a1.nth 1; simpa using this
  have hq : raw[s1.pos]? = some 47 := by have := a1.nth 0; simpa using this
  have ho : raw.length ≤ blockEnd raw (raw.length + 1) s1.pos + 1 := by
    refine block_open (by omega) (by omega) ?_
    rw [a1.rest]
    rintro ⟨a, d, e⟩
    cases a with
    | nil => simp at e
    | cons a0 a => exact hb ⟨a, d, by simp at e ⊢; exact e.2⟩
  have hs : (step raw false s1 47).pos = blockEnd raw (raw.length + 1) s1.pos + 2 := by
    unfold step
    rw [if_neg (by decide), if_neg (by decide)]
    simp only [h1, and_self, if_true]
    rfl
  obtain ⟨m, hm⟩ : ∃ m, raw.length + 2 = m + 2 + n := ⟨raw.length - n, by simp only at hn; omega⟩
  unfold strip
  rw [if_neg (by rw [hraw]; simp)]
  have hz : raw[0]? = some c := by
    rw [hraw, List.append_assoc, List.getElem?_append_left (by rw [List.getElem?_eq_some_iff] at hc; exact hc.1), hc]
  simp only
  rw [hz, if_neg (fun e => hcb (by rw [Option.some.inj e]; decide)), hm, hrun, loop, if_neg (by omega), hq]
  simp only
  rw [loop, if_neg (by omega), List.getElem?_eq_none (by omega)]
  rfl

/-- The hypotheses are met. -/
example : strip b!"ab/*c" = .ub := C55_open_comment (w := b!"ab") (b := b!"c") (.cons (a := [97]) (.letter (by decide)) (.one (.letter (by decide)))) (by
  rintro ⟨a, d, e⟩
  rcases a with _ | ⟨_, _ | ⟨_, a⟩⟩ <;> simp at e)

end Verif.Strip
