import Verif.Proof.ReadMember
import Verif.Props.Lexer
/-!
# Declarations in files and namespaces: the search for a constructor or destructor finds none
-/
namespace Verif.Parse
open Verif.Lex (Tok IsWord)
open Verif.Ast P
open Verif.Ser hiding Env boundsText isNext

variable {e : Env} {s : St} {t u : Tok} {ts vs more rest : List Tok} {x name : Bytes} {a b : Nat}

/-- What the search needs to know about the tokens. -/
structure Scan (e : Env) : Prop where
  bytes : ∀ (i : Nat) t, i < e.num → e.cells[i]? = some t → ∃ b, e.mem[t.start]? = some b
  ops : ∀ (i : Nat) t, i < e.num → e.cells[i]? = some t → t.type = .Operator → ∃ b, e.mem[t.start + 1]? = some b
  nul : ∃ c, e.mem = c ++ [0]
  noCtor : NoCtor e.mem (e.cells.take e.num)
  last : ∀ t, 0 < e.num → e.cells[e.num - 1]? = some t → t.type ∉ [TokType.Identifier, .Operator, .Access_StaticSymbol]
  room : e.num + 2 ≤ e.cells.length

theorem Scan.cell (hS : Scan e) {i : Nat} (hi : i ≤ e.num + 1) : ∃ t, e.cells[i]? = some t := by
  have := hS.room
  exact ⟨_, List.getElem?_eq_getElem (by omega)⟩

theorem skipTemplate_ends (hS : Scan e) : ∀ (fuel i : Nat) (nav : Tok) (l : Int), e.num - i < fuel → i ≤ e.num → e.cells[i]? = some nav →
    ∃ j t, skipTemplate e.mem e.cells e.num fuel i nav l = .ok (j, t) ∧ i ≤ j ∧ e.cells[j]? = some t ∧ ((j < e.num ∧ t.type = .Paren_Open) ∨ j = e.num) := by
  intro fuel
  induction fuel with
  | zero => intro i nav l h; omega
  | succ fuel ih =>
    intro i nav l hf hi hc
    unfold skipTemplate
    by_cases hlt : i < e.num
    · rw [if_pos hlt]
      obtain ⟨b, hb⟩ := hS.bytes i nav hlt hc
      rw [hb]
      simp only [Res.ofOption, Res.ok_bind]
      obtain ⟨b1, hb1⟩ : ∃ b1, (if nav.type = .Operator then Res.ofOption e.mem[nav.start + 1]? else .ok 0) = .ok b1 := by
        split
        · rename_i ho
          obtain ⟨b1, hb1⟩ := hS.ops i nav hlt hc ho
          exact ⟨b1, by rw [hb1]; rfl⟩
        · exact ⟨0, rfl⟩
      simp only [Res.ofOption] at hb1
      rw [hb1, Res.ok_bind]
      generalize (if nav.type = TokType.Operator ∧ b1 = 62 then _ else _ : Int) = l'
      split
      · rename_i hp
        exact ⟨i, nav, rfl, Nat.le_refl _, hc, .inl ⟨hlt, hp.1⟩⟩
      · obtain ⟨t, ht⟩ := hS.cell (i := i + 1) (by omega)
        rw [ht]
        obtain ⟨j, u, r1, r2, r3, r4⟩ := ih (i + 1) t l' (by omega) hlt ht
        exact ⟨j, u, r1, by omega, r3, r4⟩
    · rw [if_neg hlt]
      exact ⟨i, nav, rfl, Nat.le_refl _, hc, .inr (by omega)⟩

theorem parenAhead_ends (hS : Scan e) : ∀ (fuel i : Nat) (nav : Tok), e.num - i < fuel → i ≤ e.num → e.cells[i]? = some nav →
    ∃ j, parenAhead e.mem e.cells e.num fuel i nav = .ok j ∧ i ≤ j ∧ ((j < e.num ∧ ∃ t, e.cells[j]? = some t ∧ t.type = .Paren_Open) ∨ j = e.num ∨ j = e.num + 1) := by
  intro fuel
  induction fuel with
  | zero => intro i nav h; omega
  | succ fuel ih =>
    intro i nav hf hi hc
    unfold parenAhead
    by_cases hlt : i < e.num
    · rw [if_pos hlt]
      obtain ⟨b, hb⟩ := hS.bytes i nav hlt hc
      rw [hb]
      simp only [Res.ofOption, Res.ok_bind]
      obtain ⟨j, t, r1, r2, r3, r4⟩ : ∃ j t, (if b = 60 then skipTemplate e.mem e.cells e.num (e.num + 1) i nav 0 else .ok (i, nav)) = .ok (j, t) ∧ i ≤ j ∧ e.cells[j]? = some t ∧
          ((j < e.num) ∨ j = e.num) := by
        split
        · obtain ⟨j, t, r1, r2, r3, r4⟩ := skipTemplate_ends hS (e.num + 1) i nav 0 (by omega) hi hc
          exact ⟨j, t, r1, r2, r3, r4.imp And.left id⟩
        · exact ⟨i, nav, rfl, Nat.le_refl _, hc, .inl hlt⟩
      rw [r1, Res.ok_bind]
      simp only []
      split
      · rename_i hp
        refine ⟨j, rfl, r2, ?_⟩
        rcases r4 with r4 | r4
        · exact .inl ⟨r4, t, r3, hp⟩
        · exact .inr (.inl r4)
      · obtain ⟨t', ht'⟩ := hS.cell (i := j + 1) (by omega)
        rw [ht']
        show ∃ j_1, parenAhead e.mem e.cells e.num fuel (j + 1) t' = .ok j_1 ∧ _
        rcases r4 with r4 | r4
        · obtain ⟨k, w1, w2, w3⟩ := ih (j + 1) t' (by omega) r4 ht'
          exact ⟨k, w1, by omega, w3⟩
        · subst r4
          obtain ⟨fuel, rfl⟩ : ∃ k, fuel = k + 1 := ⟨fuel - 1, by omega⟩
          unfold parenAhead
          rw [if_neg (by omega)]
          exact ⟨e.num + 1, rfl, by omega, .inr (.inr rfl)⟩
    · rw [if_neg hlt]
      exact ⟨i, rfl, Nat.le_refl _, .inr (.inl (by omega))⟩

theorem compareLen_other (lt : Bool) : ∀ (n r b : Bytes), (0 : UInt8) ∉ n → ¬ n <+: b → (0 : UInt8) ∈ b → ∃ v, CStr.compareLen lt (n ++ r) b n.length = .ok v ∧ v ≠ 0
  | [], _, _, _, h, _ => absurd (List.nil_prefix) h
  | _ :: _, _, [], _, _, h => by cases h
  | x :: n, r, y :: b, h1, h2, h3 => by
    rw [List.cons_append, List.length_cons]
    unfold CStr.compareLen
    simp only [List.mem_cons, not_or] at h1
    by_cases hxy : x = y
    · subst hxy
      rw [if_neg (by simp), if_neg (fun hh => h1.1 hh.symm)]
      refine compareLen_other lt n r b h1.2 (fun hh => h2 ?_) ?_
      · obtain ⟨w, hw⟩ := hh
        exact ⟨w, by rw [← hw]; rfl⟩
      · rcases List.mem_cons.1 h3 with h | h
        · exact absurd h h1.1
        · exact h
    · rw [if_pos hxy]
      exact ⟨_, rfl, by cases lt <;> simp⟩

theorem word_bytes {n : Bytes} (h : IsWord n) : (0 : UInt8) ∉ n ∧ ∃ a r, n = a :: r ∧ a ≠ 60 ∧ a ≠ 62 := by
  obtain ⟨a, r, rfl, ha, hr⟩ := h
  have k1 : charIsAlpha a = true ∨ a = 95 → a ≠ 0 ∧ a ≠ 60 ∧ a ≠ 62 := by
    intro ha
    refine ⟨?_, ?_, ?_⟩ <;> (intro hh; rw [hh] at ha; revert ha; decide)
  have k2 : ∀ b : UInt8, charIsAlphanumeric b = true ∨ b = 95 → b ≠ 0 := by
    intro b hb hh
    rw [hh] at hb
    revert hb
    decide
  obtain ⟨g1, g2, g3⟩ := k1 ha
  refine ⟨?_, a, r, rfl, g2, g3⟩
  intro hh
  rcases List.mem_cons.1 hh with hh | hh
  · exact g1 hh.symm
  · exact k2 0 (hr 0 hh) rfl

theorem tokBefore_run {i k : Nat} (hk : k ≤ i) (ht : e.cells[i - k]? = some t) : tokBefore i k e s = .ok (t, s) := by
  unfold tokBefore
  rw [iteP, if_neg (by omega)]
  unfold Parse.tokAt
  rw [ht]
  rfl

theorem Scan.take (hS : Scan e) {i : Nat} (hi : i < e.num) (h : e.cells[i]? = some t) : (e.cells.take e.num)[i]? = some t := by
  rw [List.getElem?_take_of_lt hi, h]

theorem IdTok.inside {n : Bytes} {c : Bytes} (h : IdTok c t n) : ∃ r, c.drop t.start = n ++ r := by
  obtain ⟨h1, -⟩ := h
  have h2 := h1.text
  unfold Lex.slice at h2
  refine ⟨(c.drop t.start).drop n.length, ?_⟩
  have := List.take_append_drop n.length (c.drop t.start)
  rw [h2] at this
  exact this.symm

theorem identBefore_run {j k : Nat} {n : Bytes} (ht : e.cells[j]? = some t) (hn : IdTok e.mem t n) (hw : IsWord n) : identBefore e.mem e.cells k j 0 0 = .ok t := by
  obtain ⟨-, a, r, rfl, h1, h2⟩ := word_bytes hw
  have hb : e.mem[t.start]? = some a := by
    obtain ⟨r', hr⟩ := hn.inside
    have : (e.mem.drop t.start)[0]? = some a := by rw [hr]; rfl
    simpa using this
  have hty : t.type = .Identifier := hn.1.type
  have hl : levelsBefore e.mem t 0 0 = .ok (0, 0) := by
    unfold levelsBefore
    rw [hb]
    simp [Res.ofOption, Res.ok_bind, hty, h1, h2]
  unfold identBefore
  cases j with
  | zero =>
    simp only [ht, Res.ofOption, Res.ok_bind]
    split
    · rfl
    · rw [hl]
      simp [Res.ok_bind, hty]
  | succ j =>
    simp only [ht, Res.ofOption, Res.ok_bind]
    split
    · rfl
    · rw [hl]
      simp [Res.ok_bind, hty]

theorem textFrom_run {b : UInt8} (hb : e.mem[t.start]? = some b) : textFrom t e s = .ok (e.mem.drop t.start, s) := by
  unfold textFrom textAt
  obtain ⟨hlt, -⟩ := List.getElem?_eq_some_iff.1 hb
  rw [if_pos (by omega)]

/-- There is neither a constructor nor a destructor here. -/
theorem ctorDtor_none {f n : Tok} {tl : List Tok} {sq : Nat} (hS : Scan e) (hf : f.type ∉ [TokType.Paren_Open, .Access_StaticSymbol]) (hn : n.type ≠ .Paren_Open)
    (h : Here e s (f :: n :: tl) rest) : ctorDtor sq e s = .ok (0, s) := by
  simp only [List.mem_cons, List.not_mem_nil, or_false, not_or] at hf
  have hf0 : e.cells[s.idx]? = some f := h.nth 0
  have hn0 : e.cells[s.idx + 1]? = some n := h.nth 1
  have hnum := h.num
  simp only [List.length_cons] at hnum
  obtain ⟨j, r1, r2, r3⟩ := parenAhead_ends hS (e.num + 1) s.idx f (by omega) (by omega) hf0
  have hj2 : s.idx + 2 ≤ j := by
    rcases r3 with ⟨hj, z, hz1, hz2⟩ | hj | hj
    · rcases Nat.lt_or_ge j (s.idx + 2) with hlt | hge
      · exfalso
        have : j = s.idx ∨ j = s.idx + 1 := by omega
        rcases this with rfl | rfl
        · rw [hf0] at hz1; cases hz1; exact hf.1 hz2
        · rw [hn0] at hz1; cases hz1; exact hn hz2
      · exact hge
    · omega
    · omega
  unfold ctorDtor
  refine bind_run (envP _ _) ?_
  refine bind_run (getP _ _) ?_
  refine bind_run (a := f) (s' := s) (by unfold Parse.tokAt; rw [hf0]; rfl) ?_
  refine bind_run (a := j) (s' := s) (by unfold res; rw [r1]; rfl) ?_
  obtain ⟨y, hy⟩ := hS.cell (i := j - 1) (by omega)
  obtain ⟨l, hl⟩ := hS.cell (i := j - 2) (by omega)
  refine bind_run (tokBefore_run (by omega) hy) ?_
  by_cases hyi : y.type = .Identifier
  · simp only [hyi, ne_eq, not_true_eq_false, if_false]
    refine bind_run (tokBefore_run (by omega) hl) ?_
    have key : (l.type = .Operator → e.mem[l.start]? ≠ some 126 ∧ ∃ b, e.mem[l.start]? = some b) ∧ (l.type = .Access_StaticSymbol → j < e.num ∧ 3 ≤ j ∧ ∃ w m n, e.cells[j - 3]? = some w ∧
        IdTok e.mem w m ∧ IsWord m ∧ IdTok e.mem y n ∧ IsWord n ∧ ¬ n <+: e.mem.drop w.start) := by
      rcases r3 with ⟨hj, z, hz1, hz2⟩ | hj | hj
      · have e1 : j - 2 + 1 = j - 1 := by omega
        have e2 : j - 2 + 2 = j := by omega
        refine ⟨fun ho => ⟨hS.noCtor.tilde (j - 2) l y z (hS.take (by omega) hl) (by rw [e1]; exact hS.take (by omega) hy) (by rw [e2]; exact hS.take hj hz1) hyi hz2 ho,
          hS.bytes (j - 2) l (by omega) hl⟩, fun hs => ?_⟩
        have hj3 : s.idx + 3 ≤ j := by
          rcases Nat.lt_or_ge j (s.idx + 3) with hlt | hge
          · exfalso
            have : j - 2 = s.idx := by omega
            rw [this, hf0] at hl
            cases hl
            exact hf.2 hs
          · exact hge
        obtain ⟨w, hw⟩ := hS.cell (i := j - 3) (by omega)
        have e3 : j - 3 + 1 = j - 2 := by omega
        have e4 : j - 3 + 2 = j - 1 := by omega
        have e5 : j - 3 + 3 = j := by omega
        obtain ⟨m, n, q1, q4, q2, q5, q3⟩ := hS.noCtor.scope (j - 3) w l y z (hS.take (by omega) hw) (by rw [e3]; exact hS.take (by omega) hl) (by rw [e4]; exact hS.take (by omega) hy)
          (by rw [e5]; exact hS.take hj hz1) hs hyi hz2
        exact ⟨hj, by omega, w, m, n, hw, q1, q4, q2, q5, q3⟩
      · exact absurd (by rw [hyi]; simp) (hS.last y (by omega) (by rw [← hj]; exact hy))
      · have := hS.last l (by omega) (by rw [show e.num - 1 = j - 2 by omega]; exact hl)
        simp only [List.mem_cons, List.not_mem_nil, or_false, not_or] at this
        exact ⟨fun h => absurd h this.2.1, fun h => absurd h this.2.2⟩
    by_cases ho : l.type = .Operator
    · simp only [ho, if_true]
      obtain ⟨k1, b, k2⟩ := key.1 ho
      refine bind_run (a := b) (s' := s) (by unfold chr; rw [Nat.add_zero, k2]; rfl) ?_
      refine bind_run (pureP _ _ _) ?_
      have hb : b ≠ 126 := fun hh => k1 (by rw [k2, hh])
      simp only [hb, decide_false, Bool.false_eq_true, if_false]
      refine bind_run (tokBefore_run (by omega) hl) ?_
      simp only [ho, ne_eq, reduceCtorEq, not_false_eq_true, if_true]
      rfl
    simp only [ho, if_false]
    refine bind_run (pureP _ _ _) ?_
    simp only [Bool.false_eq_true, if_false]
    refine bind_run (tokBefore_run (by omega) hl) ?_
    by_cases hs : l.type = .Access_StaticSymbol
    · obtain ⟨hj, hj3, w, m, n, hw, q1, q4, q2, q5, q3⟩ := key.2 hs
      simp only [hs, ne_eq, not_true_eq_false, if_false]
      refine bind_run (tokBefore_run hj3 hw) ?_
      refine bind_run (a := w) (s' := s) (by unfold res; rw [identBefore_run hw q1 q4]; rfl) ?_
      obtain ⟨by', hby⟩ := hS.bytes (j - 1) y (by omega) hy
      obtain ⟨bw, hbw⟩ := hS.bytes (j - 3) w (by omega) hw
      refine bind_run (textFrom_run hby) ?_
      refine bind_run (textFrom_run hbw) ?_
      obtain ⟨r, hr⟩ := q2.inside
      obtain ⟨hn0', -⟩ := word_bytes q5
      have h0 : (0 : UInt8) ∈ e.mem.drop w.start := by
        obtain ⟨c, hc⟩ := hS.nul
        obtain ⟨hlt, -⟩ := List.getElem?_eq_some_iff.1 hbw
        rw [hc] at hlt ⊢
        rw [List.drop_append_of_le_length (by simp at hlt; omega)]
        simp
      obtain ⟨v, hv1, hv2⟩ := compareLen_other e.lt n r _ hn0' q3 h0
      refine bind_run (a := false) (s' := s) ?_ ?_
      · unfold sameLen
        refine bind_run (envP _ _) ?_
        refine bind_run (a := v) (s' := s) (by unfold res; rw [hr, q2.1.len, hv1]; rfl) ?_
        simp [pureP, hv2]
      · simp only [Bool.false_eq_true, and_false, if_false]
        rfl
    · simp only [hs, ne_eq, not_false_eq_true, if_true]
      rfl
  · simp only [hyi, ne_eq, not_false_eq_true, if_true]
    rfl

end Verif.Parse
