import Verif.Props.LexSpec
/-! # Lexer: lemmas about the cursor and the loops -/
namespace Verif.Lex

/-- `W u x P`: `x` does not hang, has undefined behaviour only if `u`, and its value satisfies `P`. -/
def W {α : Type} (u : Prop) (x : Res α) (P : α → Prop) : Prop :=
  match x with
  | .ok a => P a
  | .stop => True
  | .ub => u
  | .hang => False

theorem W.bind {α β : Type} {u : Prop} {x : Res α} {f : α → Res β} {P : α → Prop} {Q : β → Prop} (h : W u x P)
    (hf : ∀ a, P a → W u (f a) Q) : W u (x.bind f) Q := by
  cases x with
  | ok a => exact hf a h
  | stop => trivial
  | ub => exact h
  | hang => exact h

theorem W.mono {α : Type} {u : Prop} {x : Res α} {P Q : α → Prop} (h : W u x P) (hf : ∀ a, P a → Q a) : W u x Q := by
  cases x with
  | ok a => exact hf a h
  | _ => exact h

/-- The scanner is behind `w`. -/
def At (mem : Bytes) (c : Cur) (w : Bytes) : Prop := mem = w ++ c.rest ∧ c.pos = ⟨w.length, lineOf w, colOf w⟩

theorem step_eq (w : Bytes) (b : UInt8) :
    Pos.step ⟨w.length, lineOf w, colOf w⟩ b = ⟨(w ++ [b]).length, lineOf (w ++ [b]), colOf (w ++ [b])⟩ := by
  unfold Pos.step lineOf colOf
  by_cases h : b = 10
  · simp [h]; omega
  · simp [h]
    omega

theorem At.step {mem : Bytes} {b : UInt8} {r : Bytes} {p : Pos} {w : Bytes} (h : At mem ⟨b :: r, p⟩ w) :
    At mem ⟨r, p.step b⟩ (w ++ [b]) := by
  obtain ⟨h1, h2⟩ := h
  simp only at h1 h2
  subst h2
  exact ⟨by simpa using h1, step_eq w b⟩

theorem At.ne {content mem : Bytes} (hm : mem = content ++ [0]) {c : Cur} {w : Bytes} (h : At mem c w) {b : UInt8} {r : Bytes}
    (hr : c.rest = b :: r) (hb : b ≠ 0) : r ≠ [] := by
  rintro rfl
  have := h.1
  rw [hm, hr] at this
  have h2 := congrArg List.getLast? this
  simp at h2
  exact hb h2.symm

theorem At.lt {mem : Bytes} {c c' : Cur} {w v : Bytes} (h : At mem c w) (h' : At mem c' (w ++ v)) : c.rest.length = v.length + c'.rest.length := by
  have h1 := congrArg List.length h.1
  have h2 := congrArg List.length h'.1
  simp at h1 h2
  omega

/-- A read at the scanner may fault only if `u`. -/
def N (u : Prop) (c : Cur) : Prop := c.rest = [] → u

theorem W_peek {u : Prop} {c : Cur} (hn : N u c) : W u c.peek fun b => ∃ r, c.rest = b :: r := by
  unfold Cur.peek
  split
  · rename_i h; exact hn h
  · rename_i b r h; exact ⟨r, h⟩

theorem W_move {u : Prop} {mem : Bytes} {c : Cur} {w : Bytes} (h : At mem c w) (hn : N u c) :
    W u c.move fun c' => ∃ b, c.rest = b :: c'.rest ∧ At mem c' (w ++ [b]) := by
  obtain ⟨rest, p⟩ := c
  cases rest with
  | nil => exact hn rfl
  | cons b r => exact ⟨b, rfl, h.step⟩

/-- After a byte has been looked at. -/
theorem W_move' {u : Prop} {mem : Bytes} {c : Cur} {w : Bytes} (h : At mem c w) {b : UInt8} {r : Bytes} (hr : c.rest = b :: r) :
    W u c.move fun c' => c'.rest = r ∧ At mem c' (w ++ [b]) := by
  obtain ⟨rest, p⟩ := c
  simp only at hr
  subst hr
  exact ⟨rfl, h.step⟩

theorem left_ne {c : Cur} (h : c.left ≠ 0) {b : UInt8} {r : Bytes} (hr : c.rest = b :: r) : r ≠ [] := by
  rintro rfl
  simp [Cur.left, hr] at h

theorem left_zero {c : Cur} (h : c.left = 0) : ∃ b, c.rest = [b] := by
  unfold Cur.left at h
  have : c.rest.length = 1 := by omega
  exact List.length_eq_one_iff.1 this

theorem N_of {u : Prop} {c : Cur} {b : UInt8} {r : Bytes} (h : c.rest = b :: r) : N u c := by
  intro h'; rw [h] at h'; cases h'

theorem runL_W {u : Prop} {mem : Bytes} (P : UInt8 → Bool) : ∀ (rest : Bytes) (p : Pos) (w : Bytes), At mem ⟨rest, p⟩ w → (rest = [] → u) →
    W u (runL P rest p) fun x => ∃ v, At mem x.1 (w ++ v) ∧ (∀ b ∈ v, P b = true) ∧ x.2 = v.length ∧
      ∃ b r, x.1.rest = b :: r ∧ (r = [] ∨ P b = false)
  | [], _, _, _, hu => hu rfl
  | [b], p, w, h, _ => ⟨[], by simpa using h, by simp, rfl, b, [], rfl, .inl rfl⟩
  | b :: b2 :: r, p, w, h, _ => by
    unfold runL
    split
    · rename_i hb
      refine W.bind (runL_W P (b2 :: r) (p.step b) (w ++ [b]) h.step (by simp)) ?_
      rintro x ⟨v, h1, h2, h3, h4⟩
      exact ⟨b :: v, by simpa using h1, by simpa [hb] using h2, by simp [h3], h4⟩
    · rename_i hb
      exact ⟨[], by simpa using h, by simp, rfl, b, b2 :: r, rfl, .inr (by simpa using hb)⟩

theorem W_run {u : Prop} {mem : Bytes} (P : UInt8 → Bool) {c : Cur} {w : Bytes} (h : At mem c w) (hn : N u c) :
    W u (run P c) fun x => ∃ v, At mem x.1 (w ++ v) ∧ (∀ b ∈ v, P b = true) ∧ x.2 = v.length ∧
      ∃ b r, x.1.rest = b :: r ∧ (r = [] ∨ P b = false) := runL_W P c.rest c.pos w h hn

theorem W_skipWs {u : Prop} {mem : Bytes} {c : Cur} {w : Bytes} (h : At mem c w) (hn : N u c) :
    W u (skipWs c) fun c' => ∃ v, At mem c' (w ++ v) ∧ (∀ b ∈ v, charIsSpace b = true) ∧
      ∃ b r, c'.rest = b :: r ∧ (r = [] ∨ charIsSpace b = false) := by
  unfold skipWs
  refine W.bind (W_run charIsSpace h hn) ?_
  rintro x ⟨v, h1, h2, _, h4⟩
  exact ⟨v, h1, h2, h4⟩

theorem W_eatIf {u : Prop} {mem : Bytes} (y : UInt8) {c : Cur} {w : Bytes} (h : At mem c w) (hn : N u c) :
    W u (eatIf y c) fun x => ∃ v, At mem x.1 (w ++ v) ∧ x.2 = v.length ∧ c.rest = v ++ x.1.rest ∧
      ((v = [] ∧ x.1 = c ∧ c.rest.head? ≠ some y) ∨ v = [y]) := by
  unfold eatIf
  refine W.bind (W_peek hn) ?_
  rintro b ⟨r, hr⟩
  split
  · rename_i hb
    subst hb
    refine W.bind (W_move' h hr) ?_
    rintro c' ⟨h1, h2⟩
    exact ⟨[b], h2, rfl, by simp [hr, h1], .inr rfl⟩
  · rename_i hb
    exact ⟨[], by simpa using h, rfl, rfl, .inl ⟨rfl, rfl, by simp [hr, hb]⟩⟩

/-- Facts about the memory: it is the content and a NUL; junk (`J`) unless failures are fatal and carriage returns are followed by
newlines; undefined behaviour (`u`) unless the content is safe. -/
structure Ctx (content mem : Bytes) (fatal : Bool) (u J : Prop) : Prop where
  hm : mem = content ++ [0]
  hj : J ∨ (fatal = true ∧ Crlf content)
  hu : u ∨ Safe content

theorem At.split {content mem : Bytes} (hm : mem = content ++ [0]) {c : Cur} {w : Bytes} (h : At mem c w)
    (hne : c.rest ≠ []) : ∃ r, c.rest = r ++ [0] ∧ content = w ++ r := by
  have h1 := h.1
  rw [hm] at h1
  rw [← List.dropLast_concat_getLast hne, ← List.append_assoc] at h1
  have h2 := List.append_inj' h1 (by simp)
  refine ⟨c.rest.dropLast, ?_, h2.1⟩
  have : c.rest.getLast hne = 0 := by simpa using h2.2.symm
  rw [← this, List.dropLast_concat_getLast]

/-- A byte that is not the terminator is in the content. -/
theorem At.split1 {content mem : Bytes} (hm : mem = content ++ [0]) {c : Cur} {w : Bytes} (h : At mem c w) {b : UInt8} {r : Bytes}
    (hr : c.rest = b :: r) (hne : r ≠ []) : ∃ r', r = r' ++ [0] ∧ content = w ++ b :: r' := by
  obtain ⟨q, h1, h2⟩ := h.split hm (by simp [hr])
  cases q with
  | nil => rw [hr] at h1; simp at h1; exact absurd h1.2 hne
  | cons x q =>
    rw [hr] at h1
    simp at h1
    exact ⟨q, h1.2, by rw [h2, h1.1]⟩

/-- A carriage return is followed by a newline. -/
theorem crlf_next {content mem : Bytes} (hm : mem = content ++ [0]) (hcr : Crlf content) {c : Cur} {w r : Bytes} (h : At mem c w)
    (hr : c.rest = 13 :: r) : ∃ r', r = 10 :: r' ∧ r' ≠ [] := by
  obtain ⟨q, h1, h2⟩ := h.split1 hm hr (h.ne hm hr (by decide))
  obtain ⟨q', rfl⟩ := hcr _ _ h2
  exact ⟨q' ++ [0], by simp [h1], by simp⟩

/-! ## Loops -/

section
variable {content mem : Bytes} {fatal : Bool} {u J : Prop}

theorem W_endLine (hc : Ctx content mem fatal u J) {c : Cur} {w : Bytes} (h : At mem c w) (hn : N u c) :
    W u (endLine c) fun c' => ∃ v, At mem c' (w ++ v) ∧ N u c' ∧ (J ∨ ∀ b ∈ v, charIsSpace b = true) := by
  unfold endLine
  refine W.bind (W_run _ h hn) ?_
  rintro x ⟨v, h1, h2, _, b0, r0, hr0, _⟩
  have hv : ∀ b ∈ v, charIsSpace b = true := by
    intro b hb
    have : b = 32 := by simpa using h2 b hb
    subst this; decide
  split
  · exact ⟨v, h1, N_of hr0, .inr hv⟩
  · rename_i hl
    refine W.bind (W_peek (N_of hr0)) ?_
    rintro b ⟨r, hr⟩
    have hne := left_ne hl hr
    split
    · rename_i hb
      subst hb
      refine W.bind (W_move' h1 hr) ?_
      rintro c1 ⟨e1, a1⟩
      obtain ⟨b2, r2, rfl⟩ := List.exists_cons_of_ne_nil hne
      refine W.mono (W_move' a1 e1) ?_
      rintro c2 ⟨e2, a2⟩
      refine ⟨v ++ [13, b2], by simpa using a2, ?_, ?_⟩
      · intro he
        rcases hc.hu with hu | hs
        · exact hu
        · obtain ⟨r', he1, he2⟩ := crlf_next hc.hm hs.crlf h1 hr
          injection he1 with _ he1
          exact absurd (he1 ▸ e2 ▸ he) he2
      · rcases hc.hj with hj | ⟨_, hcr⟩
        · exact .inl hj
        · obtain ⟨r', he1, _⟩ := crlf_next hc.hm hcr h1 hr
          injection he1 with he1 _
          subst he1
          refine .inr fun b hb => ?_
          simp only [List.mem_append, List.mem_cons, List.not_mem_nil, or_false] at hb
          rcases hb with hb | rfl | rfl
          · exact hv b hb
          · decide
          · decide
    · split
      · rename_i hb
        subst hb
        refine W.mono (W_move' h1 hr) ?_
        rintro c1 ⟨e1, a1⟩
        refine ⟨v ++ [10], by simpa using a1, fun he => absurd (e1 ▸ he) hne, .inr fun b hb => ?_⟩
        simp only [List.mem_append, List.mem_cons, List.not_mem_nil, or_false] at hb
        rcases hb with hb | rfl
        · exact hv b hb
        · decide
      · exact ⟨v, h1, N_of hr, .inr hv⟩

theorem W_slashes (hm : mem = content ++ [0]) : ∀ (fuel : Nat) (c : Cur) (w : Bytes), At mem c w → N u c → c.rest.length < fuel →
    W u (slashes fuel c) fun c' => ∃ v, At mem c' (w ++ v) ∧ (∀ b ∈ v, charIsSpace b = true ∨ b = 92) ∧ c'.rest ≠ []
  | fuel, c, w, h, hn, hf => by
    unfold slashes
    refine W.bind (W_peek hn) ?_
    rintro b ⟨r, hr⟩
    split
    · rename_i hb
      subst hb
      cases fuel with
      | zero => omega
      | succ fuel =>
        refine W.bind (W_move' h hr) ?_
        rintro c1 ⟨e1, a1⟩
        refine W.bind (W_skipWs a1 (fun he => absurd (e1 ▸ he) (h.ne hm hr (by decide)))) ?_
        rintro c2 ⟨v, a2, hv, b2, r2, hr2, _⟩
        have hl := a1.lt a2
        refine W.mono (W_slashes hm fuel c2 _ a2 (N_of hr2) (by rw [hr] at hf; rw [e1] at hl; simp at hf; omega)) ?_
        rintro c3 ⟨v3, a3, hv3, hne⟩
        refine ⟨92 :: (v ++ v3), by simpa using a3, ?_, hne⟩
        intro b hb
        simp only [List.mem_cons, List.mem_append] at hb
        rcases hb with rfl | hb | hb
        · exact .inr rfl
        · exact .inl (hv b hb)
        · exact hv3 b hb
    · exact ⟨[], by simpa using h, by simp, by simp [hr]⟩
  termination_by fuel => fuel

theorem W_repLoop (x : UInt8) : ∀ (fuel : Nat) (c : Cur) (w : Bytes) (len : Nat), At mem c w → N u c → c.rest.length < fuel →
    W u (repLoop x fuel c len) fun y => ∃ k, At mem y.1 (w ++ List.replicate k x) ∧ N u y.1 ∧ y.2 = len + k ∧ (k = 0 ∨ len + k ≤ 3)
  | fuel, c, w, len, h, hn, hf => by
    unfold repLoop
    split
    · exact ⟨0, by simpa using h, hn, by simp, .inl rfl⟩
    · rename_i hl
      refine W.bind (W_peek hn) ?_
      rintro b ⟨r, hr⟩
      split
      · rename_i hb
        cases fuel with
        | zero => omega
        | succ fuel =>
          refine W.bind (W_move' h hr) ?_
          rintro c1 ⟨e1, a1⟩
          refine W.mono (W_repLoop x fuel c1 _ (len + 1) a1 (fun he => absurd (e1 ▸ he) (left_ne hl hr)) (by rw [e1]; rw [hr] at hf; simp at hf; omega)) ?_
          rintro y ⟨k, a2, n2, h2, h3⟩
          refine ⟨k + 1, by rw [List.replicate_succ, ← hb.1]; rw [← hb.1] at a2; simpa using a2, n2, by omega, ?_⟩
          rcases h3 with rfl | h3
          · exact .inr (by omega)
          · exact .inr (by omega)
      · exact ⟨0, by simpa using h, hn, by simp, .inl rfl⟩
  termination_by fuel => fuel

theorem W_stringLoop (hm : mem = content ++ [0]) : ∀ (fuel : Nat) (c : Cur) (w : Bytes), At mem c w → N u c → c.rest.length < fuel →
    W u (stringLoop fuel c) fun y => ∃ v q, At mem y.1 (w ++ v ++ q) ∧ N u y.1 ∧ y.2 = v.length ∧ (q = [] ∨ q = [34])
  | fuel, c, w, h, hn, hf => by
    unfold stringLoop
    split
    · exact ⟨[], [], by simpa using h, hn, rfl, .inl rfl⟩
    · rename_i hl
      cases fuel with
      | zero => omega
      | succ fuel =>
        refine W.bind (W_peek hn) ?_
        rintro b ⟨r, hr⟩
        have hne := left_ne hl hr
        rw [hr] at hf
        simp only [List.length_cons] at hf
        split
        · rename_i hb
          subst hb
          refine W.bind (W_move' h hr) ?_
          rintro c1 ⟨e1, a1⟩
          exact ⟨[], [34], by simpa using a1, fun he => absurd (e1 ▸ he) hne, rfl, .inr rfl⟩
        · split
          · refine W.bind (W_move' h hr) ?_
            rintro c1 ⟨e1, a1⟩
            have n1 : N u c1 := fun he => absurd (e1 ▸ he) hne
            split
            · refine W.bind (W_stringLoop hm fuel c1 _ a1 n1 (by rw [e1]; omega)) ?_
              rintro y ⟨v, q, a2, n2, h2, hq⟩
              exact ⟨b :: v, q, by simpa using a2, n2, by simp [h2]; omega, hq⟩
            · rename_i hl1
              refine W.bind (W_move a1 n1) ?_
              rintro c2 ⟨b2, e2, a2⟩
              have hl2 := left_ne hl1 e2
              refine W.bind (W_stringLoop hm fuel c2 _ a2 (fun he => absurd he hl2) (by rw [e1] at e2; rw [e2] at hf; simp at hf; omega)) ?_
              rintro y ⟨v, q, a3, n3, h3, hq⟩
              exact ⟨b :: b2 :: v, q, by simpa using a3, n3, by simp [h3]; omega, hq⟩
          · refine W.bind (W_move' h hr) ?_
            rintro c1 ⟨e1, a1⟩
            refine W.bind (W_stringLoop hm fuel c1 _ a1 (fun he => absurd (e1 ▸ he) hne) (by rw [e1]; omega)) ?_
            rintro y ⟨v, q, a2, n2, h2, hq⟩
            exact ⟨b :: v, q, by simpa using a2, n2, by simp [h2]; omega, hq⟩
  termination_by fuel => fuel

theorem W_peek1 {c : Cur} (hn : (∀ a b r, c.rest ≠ a :: b :: r) → u) : W u c.peek1 fun b => ∃ a r, c.rest = a :: b :: r := by
  unfold Cur.peek1
  split
  · rename_i a b r h; exact ⟨a, r, h⟩
  · rename_i h; exact hn fun a b r e => h a b r e

theorem W_commentLoop : ∀ (fuel : Nat) (c : Cur) (w : Bytes), At mem c w → (u ∨ ∃ p q, c.rest = p ++ 42 :: 47 :: q) →
    c.rest.length < fuel →
    W u (commentLoop fuel c) fun y => ∃ v r, At mem y.1 (w ++ v) ∧ y.2 = v.length ∧ y.1.rest = 42 :: 47 :: r
  | fuel, c, w, h, hp, hf => by
    unfold commentLoop
    have hn : N u c := by
      intro he
      rcases hp with hu | ⟨p, q, hq⟩
      · exact hu
      · rw [he] at hq; cases p <;> cases hq
    unfold atEnd
    rw [Res.bind_assoc]
    refine W.bind (W_peek hn) ?_
    rintro b ⟨r, hr⟩
    simp only [Res.bind_assoc]
    refine W.bind (W_peek1 ?_) ?_
    · intro hno
      rcases hp with hu | ⟨p, q, hq⟩
      · exact hu
      · match p with
        | [] => exact absurd hq (hno _ _ _)
        | [x] => exact absurd hq (hno _ _ _)
        | x :: y :: p => exact absurd hq (hno _ _ _)
    · rintro b1 ⟨a, r1, hr1⟩
      have hab : a = b := by rw [hr] at hr1; injection hr1 with e _; exact e.symm
      subst hab
      simp only [Res.ok_bind]
      have hl : ¬ c.left = 0 := by simp [Cur.left, hr1]; omega
      split
      · rename_i he
        have he : a = 42 ∧ b1 = 47 := by
          rcases he with he | he
          · exact absurd he hl
          · simpa using he
        obtain ⟨rfl, rfl⟩ := he
        exact ⟨[], r1, by simpa using h, rfl, hr1⟩
      · rename_i he
        cases fuel with
        | zero => omega
        | succ fuel =>
          refine W.bind (W_move' h hr1) ?_
          rintro c1 ⟨e1, a1⟩
          refine W.bind (W_commentLoop fuel c1 _ a1 ?_ (by rw [e1]; rw [hr1] at hf; simp at hf ⊢; omega)) ?_
          · rcases hp with hu | ⟨p, q, hq⟩
            · exact .inl hu
            · rw [hr1] at hq
              cases p with
              | nil =>
                simp only [List.nil_append, List.cons.injEq] at hq
                simp [hq.1, hq.2.1] at he
              | cons x p =>
                simp only [List.cons_append, List.cons.injEq] at hq
                exact .inr ⟨p, q, by rw [e1, hq.2]⟩
          · rintro y ⟨v, r2, a2, h2, h3⟩
            exact ⟨a :: v, r2, by simpa using a2, by simp [h2], h3⟩
  termination_by fuel => fuel

theorem W_unsupLoop (hc : Ctx content mem fatal u J) : ∀ (fuel : Nat) (inStr inChr : Bool) (c : Cur) (w : Bytes), At mem c w → N u c →
    c.rest.length < fuel →
    W u (unsupLoop fatal fuel inStr inChr c) fun y => ∃ v, At mem y.1 (w ++ v) ∧ N u y.1 ∧ y.2 = v.length
  | fuel, inStr, inChr, c, w, h, hn, hf => by
    unfold unsupLoop
    split
    · exact ⟨[], by simpa using h, hn, rfl⟩
    · rename_i hl
      cases fuel with
      | zero => omega
      | succ fuel =>
        refine W.bind (W_peek hn) ?_
        rintro b ⟨r, hr⟩
        have hne := left_ne hl hr
        simp only
        generalize hs : (if b = 34 ∧ inChr = false then !inStr else inStr) = inStr'
        generalize hch : (if b = 39 ∧ inStr' = false then !inChr else inChr) = inChr'
        split
        · refine W.bind (W_move' h hr) ?_
          rintro c1 ⟨e1, a1⟩
          refine W.bind (W_eatIf 13 a1 (fun he => absurd (e1 ▸ he) hne)) ?_
          rintro x ⟨v, a2, hv, hsp, hcase⟩
          have hx : x.1.rest ≠ [] := by
            intro he
            rcases hcase with ⟨rfl, he2, _⟩ | rfl
            · rw [he2, e1] at he; exact hne he
            · exact (a1.ne hc.hm (b := 13) (r := x.1.rest) (by simpa using hsp) (by decide)) he
          refine W.bind (W_peek fun he => absurd he hx) ?_
          rintro b2 ⟨r2, hr2⟩
          split
          · rename_i hb2
            subst hb2
            refine W.bind (W_move' a2 hr2) ?_
            rintro c3 ⟨e3, a3⟩
            have hlen := a1.lt a2
            refine W.bind (W_unsupLoop hc fuel inStr' inChr' c3 _ a3 (fun he => absurd (e3 ▸ he) (a2.ne hc.hm hr2 (by decide))) ?_) ?_
            · rw [e1, hr2] at hlen; rw [hr] at hf; rw [e3]; simp at hlen hf; omega
            · rintro y ⟨v2, a4, n4, h4⟩
              exact ⟨b :: (v ++ 10 :: v2), by simpa using a4, n4, by simp [hv, h4]; omega⟩
          · split
            · trivial
            · exact ⟨b :: v, by simpa using a2, fun he => absurd he hx, by simp [hv]; omega⟩
        · refine W.bind (W_eatIf 13 h hn) ?_
          rintro x ⟨v, a2, hv, hsp, hcase⟩
          have hx : x.1.rest ≠ [] := by
            intro he
            rcases hcase with ⟨rfl, he2, _⟩ | rfl
            · rw [he2, hr] at he; cases he
            · exact (h.ne hc.hm (b := 13) (r := x.1.rest) (by simpa using hsp) (by decide)) he
          refine W.bind (W_peek fun he => absurd he hx) ?_
          rintro b2 ⟨r2, hr2⟩
          split
          · rename_i hb2
            subst hb2
            refine W.bind (W_move' a2 hr2) ?_
            rintro c3 ⟨e3, a3⟩
            exact ⟨v ++ [10], by simpa using a3, fun he => absurd (e3 ▸ he) (a2.ne hc.hm hr2 (by decide)), by simp [hv]⟩
          · rename_i hb2
            refine W.bind (W_move' a2 hr2) ?_
            rintro c3 ⟨e3, a3⟩
            have hlen := h.lt a2
            refine W.bind (W_unsupLoop hc fuel inStr' inChr' c3 _ a3 ?_ ?_) ?_
            · intro he
              rw [e3] at he
              rcases hcase with ⟨rfl, he2, _⟩ | rfl
              · rw [he2, hr] at hr2
                injection hr2 with _ e
                rw [← e] at he
                exact absurd he hne
              · rcases hc.hu with hu | hs
                · exact hu
                · have hr13 : c.rest = 13 :: b2 :: r2 := by rw [hsp, hr2]; rfl
                  obtain ⟨r', e1, _⟩ := crlf_next hc.hm hs.crlf h hr13
                  injection e1 with e1 _
                  exact absurd e1 hb2
            · rw [hr, hr2] at hlen; rw [hr] at hf; rw [e3]; simp at hlen hf; omega
            · rintro y ⟨v2, a4, n4, h4⟩
              exact ⟨v ++ b2 :: v2, by simpa using a4, n4, by simp [hv, h4]; omega⟩
  termination_by fuel => fuel

theorem W_contentLoop (hm : mem = content ++ [0]) : ∀ (fuel : Nat) (inStr inChr : Bool) (c : Cur) (w : Bytes), At mem c w → N u c →
    c.rest.length < fuel →
    W u (contentLoop fatal fuel inStr inChr c) fun r => ∀ y, r = some y → ∃ v, At mem y.1 (w ++ v) ∧ N u y.1 ∧ y.2 = v.length
  | fuel, inStr, inChr, c, w, h, hn, hf => by
    unfold contentLoop
    split
    · rintro y ⟨⟩
      exact ⟨[], by simpa using h, hn, rfl⟩
    · rename_i hl
      cases fuel with
      | zero => omega
      | succ fuel =>
        refine W.bind (W_peek hn) ?_
        rintro b ⟨r, hr⟩
        have hne := left_ne hl hr
        simp only
        generalize hs : (if b = 34 ∧ inChr = false then !inStr else inStr) = inStr'
        generalize hch : (if b = 39 ∧ inStr' = false then !inChr else inChr) = inChr'
        split
        · refine W.bind (W_move' h hr) ?_
          rintro c1 ⟨e1, a1⟩
          refine W.bind (W_eatIf 13 a1 (fun he => absurd (e1 ▸ he) hne)) ?_
          rintro x ⟨v, a2, hv, hsp, hcase⟩
          have hx : x.1.rest ≠ [] := by
            intro he
            rcases hcase with ⟨rfl, he2, _⟩ | rfl
            · rw [he2, e1] at he; exact hne he
            · exact (a1.ne hm (b := 13) (r := x.1.rest) (by simpa using hsp) (by decide)) he
          refine W.bind (W_peek fun he => absurd he hx) ?_
          rintro b2 ⟨r2, hr2⟩
          split
          · rename_i hb2
            subst hb2
            refine W.bind (W_move' a2 hr2) ?_
            rintro c3 ⟨e3, a3⟩
            have hlen := a1.lt a2
            refine W.bind (W_contentLoop hm fuel inStr' inChr' c3 _ a3 (fun he => absurd (e3 ▸ he) (a2.ne hm hr2 (by decide))) ?_) ?_
            · rw [e1, hr2] at hlen; rw [hr] at hf; rw [e3]; simp at hlen hf; omega
            · intro r hr
              cases r with
              | none => rintro y hy; cases hy
              | some y =>
                rintro _ ⟨⟩
                obtain ⟨v2, a4, n4, h4⟩ := hr y rfl
                exact ⟨b :: (v ++ 10 :: v2), by simpa using a4, n4, by simp [hv, h4]; omega⟩
          · unfold fail
            split
            · trivial
            · rintro y hy; cases hy
        · split
          · rintro y ⟨⟩
            exact ⟨[], by simpa using h, hn, rfl⟩
          · refine W.bind (W_move' h hr) ?_
            rintro c1 ⟨e1, a1⟩
            refine W.bind (W_contentLoop hm fuel inStr' inChr' c1 _ a1 (fun he => absurd (e1 ▸ he) hne) (by rw [e1]; rw [hr] at hf; simp at hf; omega)) ?_
            intro r hr
            cases r with
            | none => rintro y hy; cases hy
            | some y =>
              rintro _ ⟨⟩
              obtain ⟨v2, a4, n4, h4⟩ := hr y rfl
              exact ⟨b :: v2, by simpa using a4, n4, by simp [h4]; omega⟩
  termination_by fuel => fuel

end

end Verif.Lex
