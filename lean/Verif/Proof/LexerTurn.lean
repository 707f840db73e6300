import Verif.Proof.LexerTokens
/-! # Lexer: the cases of the switch, one turn, the loop -/
namespace Verif.Lex

/-- Before `lex_found_token`: a word without type, or a text that suits its type. -/
def Raw (t : Tok) (x : Bytes) : Prop := (t.type = .Invalid ∧ IsWord x) ∨ (t.type ≠ .Invalid ∧ Shape t x)

/-- What a case of the switch leaves behind `w`: it has moved over `v`; the text of the token is `v` without whitespace or a closing
quote at the end. -/
def Good (mem : Bytes) (u J : Prop) (w : Bytes) (t0 : Tok) (c : Cur) (t : Tok) : Prop :=
  ∃ v, v ≠ [] ∧ At mem c (w ++ v) ∧ N u c ∧ t.line = t0.line ∧ t.col = t0.col ∧
    (J ∨ t.start = w.length ∧ ∃ x tl, v = x ++ tl ∧ t.len = x.length ∧ Raw t x ∧ ((∀ b ∈ tl, charIsSpace b = true) ∨ (t.type = .String ∧ tl = [34])))

def GoodF (mem : Bytes) (u J : Prop) (w : Bytes) (t0 : Tok) : Found → Prop
  | .token c t => Good mem u J w t0 c t
  | .comment c t => Good mem u J w t0 c t ∧ t.type ≠ .Invalid

section
variable {content mem : Bytes} {fatal : Bool} {u J : Prop}

theorem Good.mk0 {w v : Bytes} {t0 t : Tok} {c : Cur} (h : At mem c (w ++ v)) (hv : v ≠ []) (hn : N u c) (h1 : t.line = t0.line)
    (h2 : t.col = t0.col) (h3 : t.start = w.length) (h4 : t.len = v.length)
    (h5 : Raw t v) : Good mem u J w t0 c t :=
  ⟨v, hv, h, hn, h1, h2, .inr ⟨h3, v, [], by simp, h4, h5, .inl (by simp)⟩⟩

theorem Raw.mk {t : Tok} {x : Bytes} (h1 : t.type ≠ .Invalid) (h2 : Shape t x) : Raw t x := .inr ⟨h1, h2⟩

theorem W_moveIfLeft {c : Cur} {w : Bytes} (h : At mem c w) {b : UInt8} {r : Bytes} (hr : c.rest = b :: r) (hne : r ≠ []) :
    W u (moveIfLeft c) fun c' => c'.rest = r ∧ At mem c' (w ++ [b]) ∧ N u c' := by
  unfold moveIfLeft
  split
  · rename_i hl
    obtain ⟨x, hx⟩ := left_zero hl
    rw [hr] at hx
    injection hx with _ hx
    exact absurd hx hne
  · refine W.mono (W_move' h hr) ?_
    rintro c' ⟨h1, h2⟩
    exact ⟨h1, h2, fun he => absurd (h1 ▸ he) hne⟩

theorem W_next {c : Cur} {w : Bytes} (hm : mem = content ++ [0]) (h : At mem c w) {b : UInt8} {r : Bytes} (hr : c.rest = b :: r) (hb : b ≠ 0) :
    W u c.move fun c' => c'.rest = r ∧ At mem c' (w ++ [b]) ∧ N u c' ∧ r ≠ [] := by
  have hne := h.ne hm hr hb
  refine W.mono (W_move' h hr) ?_
  rintro c' ⟨h1, h2⟩
  exact ⟨h1, h2, fun he => absurd (h1 ▸ he) hne, hne⟩

variable {c : Cur} {w : Bytes} {b : UInt8} {r : Bytes} {t : Tok}

theorem W_single (h : At mem c w) (hr : c.rest = b :: r) (hne : r ≠ []) (ty : TokType) (fl : Nat)
    (h1 : ty ≠ .Invalid) (h2 : ∀ t : Tok, t.type = ty → Shape t [b]) : W u (single c t ty fl) (GoodF mem u J w t) := by
  unfold single
  refine W.bind (W_moveIfLeft h hr hne) ?_
  rintro c1 ⟨e1, a1, n1⟩
  exact Good.mk0 a1 (by simp) n1 rfl rfl (off_eq h) rfl (Raw.mk h1 (h2 _ rfl))

theorem W_lexDot (hc : Ctx content mem fatal u J) (h : At mem c w) (hr : c.rest = b :: r) (hne : r ≠ []) (hb : b = 46) :
    W u (lexDot fatal c t) (GoodF mem u J w t) := by
  unfold lexDot
  refine W.bind (W_moveIfLeft h hr hne) ?_
  rintro c1 ⟨e1, a1, n1⟩
  refine W.bind (W_peek n1) ?_
  rintro b2 ⟨r2, hr2⟩
  split
  · rename_i hb2
    refine W.bind (W_next hc.hm a1 hr2 (by rw [hb2]; decide)) ?_
    rintro c3 ⟨e3, a3, n3, _⟩
    refine W.bind (W_peek n3) ?_
    rintro b4 ⟨r4, hr4⟩
    split
    · rename_i hb4
      refine W.bind (W_next hc.hm a3 hr4 (by rw [hb4]; decide)) ?_
      rintro c5 ⟨e5, a5, n5, _⟩
      exact Good.mk0 (v := [b, b2, b4]) (by simpa using a5) (by simp) n5 rfl rfl (off_eq h) rfl (Raw.mk nofun (show _ = _ by rw [hb, hb2, hb4]))
    · split
      · trivial
      · rename_i hf
        refine ⟨[b, b2], by simp, by simpa using a3, n3, rfl, rfl, .inl ?_⟩
        rcases hc.hj with hj | ⟨hf', _⟩
        · exact hj
        · exact absurd hf' hf
  · exact Good.mk0 a1 (by simp) n1 rfl rfl (off_eq h) rfl (Raw.mk nofun (show _ = _ by rw [hb]))

theorem W_lexAmp (hm : mem = content ++ [0]) (h : At mem c w) (hr : c.rest = b :: r) (hne : r ≠ []) (hb : b = 38) :
    W u (lexAmp c t) (GoodF mem u J w t) := by
  unfold lexAmp
  refine W.bind (W_moveIfLeft h hr hne) ?_
  rintro c1 ⟨e1, a1, n1⟩
  refine W.bind (W_peek n1) ?_
  rintro b2 ⟨r2, hr2⟩
  split
  · rename_i hb2
    refine W.bind (W_moveIfLeft a1 hr2 (a1.ne hm hr2 (by rw [hb2]; decide))) ?_
    rintro c3 ⟨e3, a3, n3⟩
    exact Good.mk0 (v := [b, b2]) (by simpa using a3) (by simp) n3 rfl rfl (off_eq h) rfl (Raw.mk nofun (show _ = _ by rw [hb, hb2]))
  · exact Good.mk0 a1 (by simp) n1 rfl rfl (off_eq h) rfl (Raw.mk nofun (show _ = _ by rw [hb]))

theorem W_lexColon (hm : mem = content ++ [0]) (h : At mem c w) (hr : c.rest = b :: r) (hne : r ≠ []) (hb : b = 58) :
    W u (lexColon c t) (GoodF mem u J w t) := by
  unfold lexColon
  refine W.bind (W_moveIfLeft h hr hne) ?_
  rintro c1 ⟨e1, a1, n1⟩
  refine W.bind (W_peek n1) ?_
  rintro b2 ⟨r2, hr2⟩
  split
  · rename_i hb2
    refine W.bind (W_next hm a1 hr2 (by rw [hb2]; decide)) ?_
    rintro c3 ⟨e3, a3, n3, _⟩
    exact Good.mk0 (v := [b, b2]) (by simpa using a3) (by simp) n3 rfl rfl (off_eq h) rfl (Raw.mk nofun (show _ = _ by rw [hb, hb2]))
  · exact Good.mk0 a1 (by simp) n1 rfl rfl (off_eq h) rfl (Raw.mk nofun (show _ = _ by rw [hb]))

theorem W_lexEnd (hc : Ctx content mem fatal u J) (h : At mem c w) (hr : c.rest = b :: r) (hne : r ≠ []) (ty : TokType)
    (h1 : ty ≠ .Invalid) (h2 : ∀ t : Tok, t.type = ty → Shape t [b]) : W u (lexEnd c t ty) (GoodF mem u J w t) := by
  unfold lexEnd
  refine W.bind (W_moveIfLeft h hr hne) ?_
  rintro c1 ⟨e1, a1, n1⟩
  refine W.bind (W_endLine hc a1 n1) ?_
  rintro c2 ⟨v, a2, n2, hv⟩
  refine ⟨b :: v, by simp, by simpa using a2, n2, rfl, rfl, ?_⟩
  rcases hv with hj | hv
  · exact .inl hj
  · exact .inr ⟨off_eq h, [b], v, rfl, rfl, Raw.mk h1 (h2 _ rfl), .inl hv⟩

theorem W_lexSquare (hm : mem = content ++ [0]) (h : At mem c w) (hr : c.rest = b :: r) (hne : r ≠ []) (hb : b = 91) :
    W u (lexSquare c t) (GoodF mem u J w t) := by
  unfold lexSquare
  rw [if_neg]
  · refine W.bind (W_move' h hr) ?_
    rintro c1 ⟨e1, a1⟩
    have n1 : N u c1 := fun he => absurd (e1 ▸ he) hne
    refine W.bind (W_peek n1) ?_
    rintro b2 ⟨r2, hr2⟩
    split
    · rename_i hb2
      refine W.bind (W_next hm a1 hr2 (by rw [hb2]; decide)) ?_
      rintro c3 ⟨e3, a3, n3, _⟩
      exact Good.mk0 (v := [b, b2]) (by simpa using a3) (by simp) n3 rfl rfl (off_eq h) rfl (Raw.mk nofun (.inl (by rw [hb, hb2])))
    · exact Good.mk0 a1 (by simp) n1 rfl rfl (off_eq h) rfl (Raw.mk nofun (show _ = _ by rw [hb]))
  · intro hl
    obtain ⟨x, hx⟩ := left_zero hl
    rw [hr] at hx
    injection hx with _ hx
    exact hne hx

theorem W_lexChar (hm : mem = content ++ [0]) (h : At mem c w) (hr : c.rest = b :: r) (hne : r ≠ []) (hb : b = 39) :
    W u (lexChar c t) (GoodF mem u J w t) := by
  unfold lexChar
  refine W.bind (W_move' h hr) ?_
  rintro c1 ⟨e1, a1⟩
  have n1 : N u c1 := fun he => absurd (e1 ▸ he) hne
  refine W.bind (P := fun x => ∃ v, At mem x.1 (w ++ v) ∧ N u x.1 ∧ x.2 = v.length ∧ ∃ v', v = b :: v') ?_ ?_
  · split
    · exact ⟨[b], a1, n1, rfl, _, rfl⟩
    · rename_i hl
      refine W.bind (W_peek n1) ?_
      rintro b2 ⟨r2, hr2⟩
      split
      · refine W.bind (W_move' a1 hr2) ?_
        rintro c3 ⟨e3, a3⟩
        have n3 : N u c3 := fun he => absurd (e3 ▸ he) (left_ne hl hr2)
        refine W.bind (W_eatIf 39 a3 n3) ?_
        rintro x ⟨v, a4, hv, hsp, hcase⟩
        refine ⟨b :: b2 :: v, by simpa using a4, ?_, by simp [hv]; omega, _, rfl⟩
        rcases hcase with ⟨_, he, _⟩ | rfl
        · rw [he]; exact n3
        · exact fun he => absurd he (a3.ne hm (b := 39) (r := x.1.rest) (by simpa using hsp) (by decide))
      · exact ⟨[b], a1, n1, rfl, _, rfl⟩
  · rintro x ⟨v, a2, n2, h2, v', hv⟩
    have hvb : v = 39 :: v' := by rw [hv, hb]
    refine W.bind (W_run _ a2 n2) ?_
    rintro y ⟨v3, a3, _, hy, b3, r3, hr3, _⟩
    have a3' : At mem y.1 (w ++ (v ++ v3)) := by simpa using a3
    split
    · exact Good.mk0 a3' (by simp [hv]) (N_of hr3) rfl rfl (off_eq h) (by simp [h2, hy]) (Raw.mk nofun ⟨v' ++ v3, by rw [hvb]; rfl⟩)
    · rename_i hl
      refine W.bind (W_move' a3' hr3) ?_
      rintro c4 ⟨e4, a4⟩
      exact Good.mk0 (v := v ++ v3 ++ [b3]) (by simpa using a4) (by simp) (fun he => absurd (e4 ▸ he) (left_ne hl hr3)) rfl rfl (off_eq h) (by simp [h2, hy]; omega) (Raw.mk nofun ⟨v' ++ v3 ++ [b3], by rw [hvb]; rfl⟩)

theorem W_lexWithAssign (hm : mem = content ++ [0]) (h : At mem c w) (hr : c.rest = b :: r) (hne : r ≠ []) (ty : TokType) (f f1 : Nat)
    (h1 : ty ≠ .Invalid) (h2 : ∀ t : Tok, t.type = ty → Shape t [b] ∧ Shape t [b, 61]) : W u (lexWithAssign c t ty f f1) (GoodF mem u J w t) := by
  unfold lexWithAssign
  refine W.bind (W_moveIfLeft h hr hne) ?_
  rintro c1 ⟨e1, a1, n1⟩
  refine W.bind (W_peek n1) ?_
  rintro b2 ⟨r2, hr2⟩
  split
  · rename_i hb2
    refine W.bind (W_moveIfLeft a1 hr2 (a1.ne hm hr2 (by rw [hb2]; decide))) ?_
    rintro c3 ⟨e3, a3, n3⟩
    exact Good.mk0 (v := [b, b2]) (by simpa using a3) (by simp) n3 rfl rfl (off_eq h) rfl (Raw.mk h1 (by rw [hb2]; exact (h2 _ rfl).2))
  · exact Good.mk0 a1 (by simp) n1 rfl rfl (off_eq h) rfl (Raw.mk h1 (h2 _ rfl).1)

theorem W_lexString (hm : mem = content ++ [0]) (h : At mem c w) (hr : c.rest = b :: r) (hne : r ≠ []) (hb : b = 34) :
    W u (lexString c t) (GoodF mem u J w t) := by
  unfold lexString
  refine W.bind (W_move' h hr) ?_
  rintro c1 ⟨e1, a1⟩
  refine W.bind (W_stringLoop hm _ c1 _ a1 (fun he => absurd (e1 ▸ he) hne) (by omega)) ?_
  rintro y ⟨v, q, a2, n2, h2, hq⟩
  refine ⟨b :: (v ++ q), by simp, by simpa using a2, n2, rfl, rfl, .inr ⟨off_eq h, b :: v, q, by simp, by simp [h2]; omega, Raw.mk nofun ⟨v, .inl (by rw [hb])⟩, ?_⟩⟩
  rcases hq with rfl | rfl
  · exact .inl (by simp)
  · exact .inr ⟨rfl, rfl⟩

theorem shape_op {t : Tok} {b : UInt8} {k : Nat} (hb : OpByte b ∨ b = 45) (hk : k = 0 ∨ 1 + k ≤ 3) (ht : t.type = .Operator) :
    Shape t (b :: List.replicate k b) := by
  unfold Shape
  rw [ht]
  refine .inr (.inr (.inr (.inr (.inr (.inr (.inr (.inr ⟨b, hb, .inr ?_⟩)))))))
  match k, hk with
  | 0, _ => exact .inl rfl
  | 1, _ => exact .inr (.inl rfl)
  | 2, _ => exact .inr (.inr rfl)
  | k + 3, hk => omega

theorem W_lexOperator (hm : mem = content ++ [0]) (h : At mem c w) (hr : c.rest = b :: r) (hne : r ≠ []) (hb : OpByte b) :
    W u (lexOperator b c t) (GoodF mem u J w t) := by
  unfold lexOperator
  refine W.bind (W_moveIfLeft h hr hne) ?_
  rintro c1 ⟨e1, a1, n1⟩
  refine W.bind (W_peek n1) ?_
  rintro b2 ⟨r2, hr2⟩
  split
  · rename_i hb2
    refine W.bind (W_moveIfLeft a1 hr2 (a1.ne hm hr2 (by rw [hb2]; decide))) ?_
    rintro c3 ⟨e3, a3, n3⟩
    exact Good.mk0 (v := [b, b2]) (by simpa using a3) (by simp) n3 rfl rfl (off_eq h) rfl (Raw.mk nofun (.inr (.inr (.inr (.inr (.inr (.inr (.inr (.inr ⟨b, .inl hb, .inl (by rw [hb2])⟩)))))))))
  · refine W.bind (W_repLoop b _ c1 _ 1 a1 n1 (by omega)) ?_
    rintro y ⟨k, a2, n2, h2, hk⟩
    exact Good.mk0 (v := b :: List.replicate k b) (by simpa using a2) (by simp) n2 rfl rfl (off_eq h) (by simp [h2]; omega) (Raw.mk nofun (shape_op (.inl hb) hk rfl))

theorem W_lexDash (hm : mem = content ++ [0]) (h : At mem c w) (hr : c.rest = b :: r) (hne : r ≠ []) (hb : b = 45) :
    W u (lexDash c t) (GoodF mem u J w t) := by
  unfold lexDash
  rw [if_neg]
  · refine W.bind (W_move' h hr) ?_
    rintro c1 ⟨e1, a1⟩
    have n1 : N u c1 := fun he => absurd (e1 ▸ he) hne
    refine W.bind (W_peek n1) ?_
    rintro b2 ⟨r2, hr2⟩
    split
    · rename_i hb2
      refine W.bind (W_next hm a1 hr2 (by rw [hb2]; decide)) ?_
      rintro c3 ⟨e3, a3, n3, _⟩
      refine W.bind (W_peek n3) ?_
      rintro b4 ⟨r4, hr4⟩
      split
      · rename_i hb4
        refine W.bind (W_next hm a3 hr4 (by rw [hb4]; decide)) ?_
        rintro c5 ⟨e5, a5, n5, _⟩
        exact Good.mk0 (v := [b, b2, b4]) (by simpa using a5) (by simp) n5 rfl rfl (off_eq h) rfl (Raw.mk nofun (.inr (.inr (.inr (.inr (.inr (.inr (.inr (.inl (by rw [hb, hb2, hb4]))))))))))
      · exact Good.mk0 (v := [b, b2]) (by simpa using a3) (by simp) n3 rfl rfl (off_eq h) rfl (Raw.mk nofun (.inr (.inr (.inr (.inr (.inr (.inr (.inl (by rw [hb, hb2])))))))))
    · split
      · rename_i hb2
        refine W.bind (W_moveIfLeft a1 hr2 (a1.ne hm hr2 (by rw [hb2]; decide))) ?_
        rintro c3 ⟨e3, a3, n3⟩
        exact Good.mk0 (v := [b, b2]) (by simpa using a3) (by simp) n3 rfl rfl (off_eq h) rfl (Raw.mk nofun (.inr (.inr (.inr (.inr (.inr (.inr (.inr (.inr ⟨b, .inr hb, .inl (by rw [hb2])⟩)))))))))
      · refine W.bind (W_repLoop 45 _ c1 _ 1 a1 n1 (by omega)) ?_
        rintro y ⟨k, a2, n2, h2, hk⟩
        exact Good.mk0 (v := b :: List.replicate k b) (by rw [hb]; rw [hb] at a2; simpa using a2) (by simp) n2 rfl rfl (off_eq h) (by simp [h2]; omega) (Raw.mk nofun (shape_op (.inr hb) hk rfl))
  · intro hl
    obtain ⟨x, hx⟩ := left_zero hl
    rw [hr] at hx
    injection hx with _ hx
    exact hne hx

/-- Two optional bytes at the end of a comment. -/
theorem W_eatIf' (hm : mem = content ++ [0]) (y : UInt8) (hy : y ≠ 0) (h : At mem c w) (hn : N u c) :
    W u (eatIf y c) fun x => ∃ v, At mem x.1 (w ++ v) ∧ x.2 = v.length ∧ N u x.1 := by
  refine W.mono (W_eatIf y h hn) ?_
  rintro x ⟨v, a1, hv, hsp, hcase⟩
  refine ⟨v, a1, hv, ?_⟩
  rcases hcase with ⟨_, he, _⟩ | rfl
  · rw [he]; exact hn
  · exact fun he => absurd he (h.ne hm (b := y) (r := x.1.rest) (by simpa using hsp) hy)

theorem W_lexSlash (hc : Ctx content mem fatal u J) (h : At mem c w) (hr : c.rest = 47 :: r) (hne : r ≠ []) :
    W u (lexSlash c t) (GoodF mem u J w t) := by
  have hm := hc.hm
  unfold lexSlash
  refine W.bind (W_move' h hr) ?_
  rintro c1 ⟨e1, a1⟩
  have n1 : N u c1 := fun he => absurd (e1 ▸ he) hne
  split
  · exact Good.mk0 a1 (by simp) n1 rfl rfl (off_eq h) rfl (Raw.mk nofun (.inr (.inr (.inr (.inr (.inl rfl))))))
  · rename_i hl
    refine W.bind (W_peek n1) ?_
    rintro b2 ⟨r2, hr2⟩
    have hne2 := left_ne hl hr2
    split
    · rename_i hb2
      refine W.bind (W_move' a1 hr2) ?_
      rintro c3 ⟨e3, a3⟩
      exact Good.mk0 (v := [47, b2]) (by simpa using a3) (by simp) (fun he => absurd (e3 ▸ he) hne2) rfl rfl (off_eq h) rfl (Raw.mk nofun (.inr (.inr (.inr (.inr (.inr (.inl (by rw [hb2]))))))))
    · split
      · rename_i hb2
        refine W.bind (W_move' a1 hr2) ?_
        rintro c3 ⟨e3, a3⟩
        refine W.bind (W_run _ a3 (fun he => absurd (e3 ▸ he) hne2)) ?_
        rintro x ⟨v4, a4, _, h4, b4, r4, hr4, _⟩
        refine W.bind (W_eatIf' hm 13 (by decide) a4 (N_of hr4)) ?_
        rintro y ⟨v5, a5, h5, n5⟩
        refine W.bind (W_eatIf' hm 10 (by decide) a5 n5) ?_
        rintro z ⟨v6, a6, h6, n6⟩
        exact ⟨Good.mk0 (v := 47 :: b2 :: (v4 ++ v5 ++ v6)) (by simpa using a6) (by simp) n6 rfl rfl (off_eq h) (by simp [h4, h5, h6]; omega) (Raw.mk nofun ⟨_, .inl (by rw [hb2])⟩), nofun⟩
      · split
        · rename_i hb2
          refine W.bind (W_move' a1 hr2) ?_
          rintro c3 ⟨e3, a3⟩
          have hcm : u ∨ ∃ p q, c3.rest = p ++ 42 :: 47 :: q := by
            rcases hc.hu with hu | hsafe
            · exact .inl hu
            · right
              have hr' : c.rest = 47 :: b2 :: r2 := by rw [hr, ← e1, hr2]
              obtain ⟨q, g1, g2⟩ := a3.split hm (by rw [e3]; exact hne2)
              obtain ⟨p, q', rfl⟩ := hsafe.comments w q (by rw [g2, hb2]; simp)
              exact ⟨p, q' ++ [0], by rw [g1]; simp⟩
          refine W.bind (W_commentLoop _ c3 _ a3 hcm (by omega)) ?_
          rintro x ⟨v4, r4, a4, h4, hr4⟩
          refine W.bind (W_move' a4 hr4) ?_
          rintro c5 ⟨e5, a5⟩
          refine W.bind (W_next hm a5 e5 (by decide)) ?_
          rintro c6 ⟨e6, a6, n6, _⟩
          refine W.bind (W_eatIf' hm 13 (by decide) a6 n6) ?_
          rintro y ⟨v7, a7, h7, n7⟩
          refine W.bind (W_eatIf' hm 10 (by decide) a7 n7) ?_
          rintro z ⟨v8, a8, h8, n8⟩
          exact ⟨Good.mk0 (v := 47 :: b2 :: (v4 ++ [42, 47] ++ v7 ++ v8)) (by simpa using a8) (by simp) n8 rfl rfl (off_eq h) (by simp [h4, h7, h8]; omega) (Raw.mk nofun ⟨_, .inr (by rw [hb2])⟩), nofun⟩
        · exact Good.mk0 a1 (by simp) n1 rfl rfl (off_eq h) rfl (Raw.mk nofun (.inr (.inr (.inr (.inr (.inl rfl))))))

theorem W_lexWord (h : At mem c w) (hr : c.rest = b :: r) (hne : r ≠ []) (hb : charIsAlpha b = true ∨ b = 95) (ht : t.type = .Invalid) :
    W u (lexWord c t) (GoodF mem u J w t) := by
  unfold lexWord
  refine W.bind (W_move' h hr) ?_
  rintro c1 ⟨e1, a1⟩
  refine W.bind (W_run _ a1 (fun he => absurd (e1 ▸ he) hne)) ?_
  rintro x ⟨v, a2, hv, h2, b2, r2, hr2, _⟩
  exact Good.mk0 (v := b :: v) (by simpa using a2) (by simp) (N_of hr2) rfl rfl (off_eq h) (by simp [h2]; omega) (.inl ⟨ht, b, v, rfl, hb, isWord_all hv⟩)

theorem W_opt (P : UInt8 → Bool) (h : At mem c w) (hn : N u c) :
    W u (opt P c) fun x => ∃ v, At mem x.1 (w ++ v) ∧ N u x.1 ∧ v.length = (if x.2.isSome then 1 else 0) ∧ ∀ b ∈ v, P b = true := by
  unfold opt
  split
  · exact ⟨[], by simpa using h, hn, rfl, by simp⟩
  · rename_i hl
    refine W.bind (W_peek hn) ?_
    rintro b ⟨r, hr⟩
    split
    · rename_i hP
      refine W.bind (W_move' h hr) ?_
      rintro c1 ⟨e1, a1⟩
      exact ⟨[b], a1, fun he => absurd (e1 ▸ he) (left_ne hl hr), rfl, by simpa using hP⟩
    · exact ⟨[], by simpa using h, hn, rfl, by simp⟩

theorem digit_num {b : UInt8} (h : charIsDigit b = true) : charIsAlphanumeric b = true ∨ b = 46 := by
  left; simp [charIsAlphanumeric, h]

theorem hex_num {b : UInt8} (h : charIsHexDigit b = true) : charIsAlphanumeric b = true ∨ b = 46 := by
  left
  simp only [charIsHexDigit, charIsAlphanumeric, charIsAlpha, charIsDigit, Bool.or_eq_true, Bool.and_eq_true, decide_eq_true_eq,
    UInt8.le_iff_toNat_le] at h ⊢
  have h1 : (102 : UInt8).toNat = 102 := rfl
  have h2 : (122 : UInt8).toNat = 122 := rfl
  have h3 : (70 : UInt8).toNat = 70 := rfl
  have h4 : (90 : UInt8).toNat = 90 := rfl
  omega

theorem base_num {b : UInt8} (h : isBasePrefix b = true) : charIsAlphanumeric b = true ∨ b = 46 := by
  simp only [isBasePrefix, Bool.or_eq_true, beq_iff_eq] at h
  left
  rcases h with ((((rfl | rfl) | rfl) | rfl) | rfl) | rfl <;> decide

theorem suffix_num {b : UInt8} (h : isSuffix b = true) : charIsAlphanumeric b = true ∨ b = 46 := by
  simp only [isSuffix, Bool.or_eq_true, beq_iff_eq] at h
  left
  rcases h with ((((((((rfl | rfl) | rfl) | rfl) | rfl) | rfl) | rfl) | rfl) | rfl) | rfl <;> decide

theorem l_num {b : UInt8} (h : isL b = true) : charIsAlphanumeric b = true ∨ b = 46 := by
  simp only [isL, Bool.or_eq_true, beq_iff_eq] at h
  left
  rcases h with rfl | rfl <;> decide

/-- Bytes of a number. -/
def Num (v : Bytes) : Prop := ∀ b ∈ v, charIsAlphanumeric b = true ∨ b = 46

theorem Num.app {v v' : Bytes} (h : Num v) (h' : Num v') : Num (v ++ v') := by
  intro b hb
  rcases List.mem_append.1 hb with hb | hb
  · exact h b hb
  · exact h' b hb

theorem W_lexNumber (h : At mem c w) (hr : c.rest = b :: r) (hne : r ≠ []) (hb : charIsDigit b = true) :
    W u (lexNumber c t) (GoodF mem u J w t) := by
  unfold lexNumber
  refine W.bind (W_move' h hr) ?_
  rintro c1 ⟨e1, a1⟩
  refine W.bind (W_opt _ a1 (fun he => absurd (e1 ▸ he) hne)) ?_
  rintro ⟨c2, p⟩ ⟨v2, a2, n2, h2, p2⟩
  have q2 : Num v2 := fun b hb => base_num (p2 b hb)
  cases p with
  | some _ =>
    refine W.bind (W_run _ a2 n2) ?_
    rintro x ⟨v3, a3, p3, h3, b3, r3, hr3, _⟩
    have q3 : Num v3 := fun b hb => hex_num (p3 b hb)
    exact Good.mk0 (v := b :: (v2 ++ v3)) (by simpa using a3) (by simp) (N_of hr3) rfl rfl (off_eq h) (by simp at h2; simp [h2, h3]; omega) (Raw.mk nofun ⟨_, _, rfl, hb, q2.app q3⟩)
  | none =>
    refine W.bind (W_run _ a2 n2) ?_
    rintro x ⟨v3, a3, p3, h3, b3, r3, hr3, _⟩
    have q3 : Num v3 := fun b hb => digit_num (p3 b hb)
    refine W.bind (W_opt _ a3 (N_of hr3)) ?_
    rintro ⟨c4, d⟩ ⟨v4, a4, n4, h4, p4⟩
    have q4 : Num v4 := fun b hb => .inr (by simpa using p4 b hb)
    cases d with
    | none =>
      exact Good.mk0 (v := b :: (v2 ++ v3 ++ v4)) (by simpa using a4) (by simp) n4 rfl rfl (off_eq h) (by simp at h2 h4; simp [h2, h3, h4]; omega) (Raw.mk nofun ⟨_, _, rfl, hb, (q2.app q3).app q4⟩)
    | some _ =>
      refine W.bind (W_run _ a4 n4) ?_
      rintro y ⟨v5, a5, p5, h5, b5, r5, hr5, _⟩
      have q5 : Num v5 := fun b hb => digit_num (p5 b hb)
      refine W.bind (W_opt _ a5 (N_of hr5)) ?_
      rintro ⟨c6, s⟩ ⟨v6, a6, n6, h6, p6⟩
      have q6 : Num v6 := fun b hb => suffix_num (p6 b hb)
      cases s with
      | none =>
        exact Good.mk0 (v := b :: (v2 ++ v3 ++ v4 ++ v5 ++ v6)) (by simpa using a6) (by simp) n6 rfl rfl (off_eq h) (by simp at h2 h4 h6; simp [h2, h3, h4, h5, h6]; omega) (Raw.mk nofun ⟨_, _, rfl, hb, (((q2.app q3).app q4).app q5).app q6⟩)
      | some prev =>
        refine W.bind (W_opt _ a6 n6) ?_
        rintro ⟨c7, l⟩ ⟨v7, a7, n7, h7, p7⟩
        have q7 : Num v7 := fun b hb => l_num (by have := p7 b hb; simp only [Bool.and_eq_true] at this; exact this.2)
        exact Good.mk0 (v := b :: (v2 ++ v3 ++ v4 ++ v5 ++ v6 ++ v7)) (by simpa using a7) (by simp) n7 rfl rfl (off_eq h) (by simp at h2 h4 h6; simp [h2, h3, h4, h5, h6, h7]; omega) (Raw.mk nofun ⟨_, _, rfl, hb, ((((q2.app q3).app q4).app q5).app q6).app q7⟩)

theorem W_lexUnknown (hc : Ctx content mem fatal u J) (h : At mem c w) (hr : c.rest = b :: r) (hne : r ≠ []) (hb : charIsSpace b = false) :
    W u (lexUnknown fatal c t) (GoodF mem u J w t) := by
  unfold lexUnknown
  split
  · trivial
  · rename_i hf
    refine W.bind (W_run _ h (N_of hr)) ?_
    rintro x ⟨v, a1, _, _, b1, r1, hr1, hst⟩
    refine ⟨v, ?_, a1, N_of hr1, rfl, rfl, .inl ?_⟩
    · rintro rfl
      have := h.lt a1
      have h2 := h.1
      rw [a1.1] at h2
      simp only [List.append_nil] at h2
      have h3 := List.append_cancel_left h2
      rw [hr1, hr] at h3
      injection h3 with h3 h4
      subst h3 h4
      rcases hst with rfl | hst
      · exact hne rfl
      · rw [hb] at hst; cases hst
    · rcases hc.hj with hj | ⟨hf', _⟩
      · exact hj
      · exact absurd hf' hf

theorem W_ite {α : Type} {p : Prop} [Decidable p] {x y : Res α} {P : α → Prop} (h1 : p → W u x P) (h2 : ¬ p → W u y P) :
    W u (if p then x else y) P := by
  split
  · exact h1 ‹_›
  · exact h2 ‹_›

theorem W_lexSwitch (hc : Ctx content mem fatal u J) (h : At mem c w) (hr : c.rest = b :: r) (hne : r ≠ []) (hb : charIsSpace b = false) (ht : t.type = .Invalid) :
    W u (lexSwitch fatal b c t) (GoodF mem u J w t) := by
  have hm := hc.hm
  unfold lexSwitch
  refine W_ite (fun hb => ?_) (fun _ => ?_)
  · exact W_lexDot hc h hr hne hb
  refine W_ite (fun hb => ?_) (fun _ => ?_)
  · exact W_lexAmp hm h hr hne hb
  refine W_ite (fun hb => ?_) (fun _ => ?_)
  · exact W_lexColon hm h hr hne hb
  refine W_ite (fun hb => ?_) (fun _ => ?_)
  · exact W_single h hr hne _ _ (by decide) (by intro t ht; subst hb; unfold Shape; rw [ht])
  refine W_ite (fun hb => ?_) (fun _ => ?_)
  · exact W_lexEnd hc h hr hne _ (by decide) (by intro t ht; subst hb; unfold Shape; rw [ht])
  refine W_ite (fun hb => ?_) (fun _ => ?_)
  · exact W_lexSquare hm h hr hne hb
  refine W_ite (fun hb => ?_) (fun _ => ?_)
  · exact W_single h hr hne _ _ (by decide) (by intro t ht; subst hb; unfold Shape; rw [ht])
  refine W_ite (fun hb => ?_) (fun _ => ?_)
  · exact W_single h hr hne _ _ (by decide) (by intro t ht; subst hb; unfold Shape; rw [ht])
  refine W_ite (fun hb => ?_) (fun _ => ?_)
  · exact W_single h hr hne _ _ (by decide) (by intro t ht; subst hb; unfold Shape; rw [ht])
  refine W_ite (fun hb => ?_) (fun _ => ?_)
  · exact W_lexChar hm h hr hne hb
  refine W_ite (fun hb => ?_) (fun _ => ?_)
  · exact W_single h hr hne _ _ (by decide) (by intro t ht; subst hb; unfold Shape; rw [ht])
  refine W_ite (fun hb => ?_) (fun _ => ?_)
  · exact W_lexWithAssign hm h hr hne _ _ _ (by decide) (by intro t ht; subst hb; unfold Shape; rw [ht]; simp)
  refine W_ite (fun hb => ?_) (fun _ => ?_)
  · exact W_lexEnd hc h hr hne _ (by decide) (by intro t ht; subst hb; unfold Shape; rw [ht])
  refine W_ite (fun hb => ?_) (fun _ => ?_)
  · exact W_lexString hm h hr hne hb
  refine W_ite (fun hb => ?_) (fun _ => ?_)
  · exact W_single h hr hne _ _ (by decide) (by intro t ht; subst hb; unfold Shape; rw [ht]; simp)
  refine W_ite (fun hb => ?_) (fun _ => ?_)
  · exact W_lexWithAssign hm h hr hne _ _ _ (by decide) (by intro t ht; subst hb; unfold Shape; rw [ht]; simp)
  refine W_ite (fun hb => ?_) (fun _ => ?_)
  · exact W_lexOperator hm h hr hne hb
  refine W_ite (fun hb => ?_) (fun _ => ?_)
  · exact W_lexDash hm h hr hne hb
  refine W_ite (fun hb47 => ?_) (fun _ => ?_)
  · exact W_lexSlash hc h (by rw [hr, hb47]) hne
  refine W_ite (fun hb => ?_) (fun _ => ?_)
  · exact W_lexWord h hr hne hb ht
  refine W_ite (fun hb => ?_) (fun _ => ?_)
  · exact W_lexNumber h hr hne hb
  exact W_lexUnknown hc h hr hne hb

theorem ord_inv {ty : TokType} (h : ord .Spec_Alignas ≤ ord ty) : ty ≠ .Invalid := by
  rintro rfl
  exact absurd h (by decide)

theorem shape_macro {t' : Tok} {x : Bytes} (k : Nat) (ht : t'.type = macroTokType k) (h1 : IsWord x) (h2 : strToTokType x = .Invalid) :
    Shape t' x := by
  unfold macroTokType at ht
  unfold Shape
  split at ht
  · rw [ht]; exact ⟨h1, h2⟩
  · split at ht
    · rw [ht]; exact ⟨h1, h2⟩
    · split at ht
      · rw [ht]; exact ⟨h1, h2⟩
      · rw [ht]; exact ⟨h1, h2⟩

theorem W_foundToken {ms : Macros} (h : At mem c w) (hn : N u c) :
    W u (foundToken mem ms c t) fun x => ∃ v, At mem x.1 (w ++ v) ∧ N u x.1 ∧ (∀ b ∈ v, charIsSpace b = true) ∧
      x.2.start = t.start ∧ x.2.len = t.len ∧ x.2.line = t.line ∧ x.2.col = t.col ∧ (t.type ≠ .Invalid → x.2 = t ∧ v = []) ∧
      (t.type = .Invalid → IsWord (slice mem t.start t.len) → Lexeme x.2 (slice mem t.start t.len)) := by
  unfold foundToken
  split
  · rename_i hty
    exact ⟨[], by simpa using h, hn, by simp, rfl, rfl, rfl, rfl, fun _ => ⟨rfl, rfl⟩, fun h => absurd h hty⟩
  · rename_i hty
    generalize slice mem t.start t.len = text
    generalize hk : strToTokType text = type
    have triv : ∀ t' : Tok, t'.start = t.start → t'.len = t.len → t'.line = t.line → t'.col = t.col →
        (IsWord text → Lexeme t' text) →
        ∃ v, At mem c (w ++ v) ∧ N u c ∧ (∀ b ∈ v, charIsSpace b = true) ∧
        t'.start = t.start ∧ t'.len = t.len ∧ t'.line = t.line ∧ t'.col = t.col ∧ (t.type ≠ .Invalid → t' = t ∧ v = []) ∧
        (t.type = .Invalid → IsWord text → Lexeme t' text) :=
      fun t' h1 h2 h3 h4 h5 => ⟨[], by simpa using h, hn, by simp, h1, h2, h3, h4, fun h => absurd h hty, fun _ => h5⟩
    unfold foundWord
    split
    · rename_i hext
      refine W.bind (W_skipWs h hn) ?_
      rintro c1 ⟨v, a1, hv, b1, r1, hr1, _⟩
      refine W.bind (W_peek (N_of hr1)) ?_
      rintro b2 ⟨r2, hr2⟩
      split
      · exact ⟨v, a1, N_of hr1, hv, rfl, rfl, rfl, rfl, fun h => absurd h hty, fun _ _ => .inr (hk.trans hext)⟩
      · exact ⟨v, a1, N_of hr1, hv, rfl, rfl, rfl, rfl, fun h => absurd h hty, fun _ _ => .inl ⟨by simp [hext], hk⟩⟩
    · split
      · rename_i hsp
        refine triv _ rfl rfl rfl rfl fun _ => .inl ⟨?_, hk⟩
        rcases hsp with hsp | hsp | hsp
        · exact ord_inv hsp.2
        · simp [hsp]
        · simp [hsp]
      · split
        · rename_i hinv
          exact triv _ rfl rfl rfl rfl fun _ => .inl ⟨hinv, hk⟩
        · rename_i hinv
          have hinv : strToTokType text = .Invalid := by rw [hk]; simpa using hinv
          refine W.bind (P := fun _ => True) ?_ ?_
          · split
            · trivial
            · refine W.bind (W_peek hn) ?_
              rintro b ⟨r, hr⟩
              trivial
          · intro hasArgs _
            split
            · exact triv _ rfl rfl rfl rfl fun hw => .inr (.inl ⟨hw, hinv⟩)
            · split
              · exact triv _ rfl rfl rfl rfl fun hw => .inr (shape_macro _ rfl hw hinv)
              · exact triv _ rfl rfl rfl rfl fun hw => .inr (.inl ⟨hw, hinv⟩)

/-- The invariant between two turns. -/
def Inv (mem : Bytes) (u J : Prop) (s : State) (w : Bytes) : Prop := At mem s.cur w ∧ N u s.cur ∧ T J w s.toks

theorem T.found {w s x tl : Bytes} {toks : List Tok} (ht : T J w toks) (hs : ∀ b ∈ s, charIsSpace b = true)
    (hsp : Spot (w ++ s) t.line t.col) (h1 : t.start = (w ++ s).length) (h2 : t.len = x.length) (hx : Lexeme t x)
    (htl : (∀ b ∈ tl, charIsSpace b = true) ∨ (t.type = .String ∧ tl = [34])) : T J (w ++ s ++ (x ++ tl)) (toks ++ [t]) := by
  have h := T.tok (x := x) ht (fun b hb => .inl (hs b hb)) (by simpa using h1) h2 hx hsp.placed
  rcases htl with htl | ⟨hty, rfl⟩
  · simpa using h.whites (v := tl) (.inr htl)
  · rcases h with hj | h
    · exact .inl hj
    · have := h.quote hty (by rw [h1, h2]; simp [Nat.add_assoc])
      exact .inr (by simpa using this)

theorem W_finishToken (hc : Ctx content mem fatal u J) {st : State} {t0 : Tok} {s : Bytes} (hg : Good mem u J (w ++ s) t0 c t)
    (ht : T J w st.toks) (hs : ∀ b ∈ s, charIsSpace b = true) (hsp : Spot (w ++ s) t0.line t0.col) :
    W u (finishToken mem st c t) fun st' => ∃ w', Inv mem u J st' w' ∧ w.length < w'.length := by
  obtain ⟨v, hv, a1, n1, hl, hk, hj⟩ := hg
  unfold finishToken
  refine W.bind (W_foundToken a1 n1) ?_
  rintro ⟨c2, t2⟩ ⟨v2, a2, n2, hv2, hs2, hl2, hli2, hco2, hty2, hlx⟩
  simp only at a2 n2 hs2 hl2 hli2 hco2 hty2 hlx ⊢
  have hT : T J (w ++ s ++ v ++ v2) (st.toks ++ [t2]) := by
    rcases hj with hj | ⟨hst, x, tl, rfl, hlen, hraw, htl⟩
    · exact .inl hj
    · have hxs : slice mem t.start t.len = x := by
        rw [hst, hlen, slice, a1.1]
        simp
      have hL : Lexeme t2 x := by
        rcases hraw with ⟨hinv, hw⟩ | ⟨hinv, hsh⟩
        · rw [hxs] at hlx
          exact hlx hinv hw
        · rw [(hty2 hinv).1]
          exact .inr hsh
      have := T.found (t := t2) (x := x) (tl := tl) ht hs (by rw [hli2, hco2, hl, hk]; exact hsp) (hs2.trans hst) (hl2.trans hlen) hL (by
        rcases htl with htl | ⟨hty, htl⟩
        · exact .inl htl
        · exact .inr ⟨by rw [(hty2 (by rw [hty]; decide)).1]; exact hty, htl⟩)
      exact T.whites this (.inr hv2)
  have hlen : w.length < (w ++ s ++ v ++ v2).length := by
    have := List.length_pos_iff.2 hv
    simp; omega
  split
  · refine W.bind (W_newlineAfter hc a2 n2 hT) ?_
    rintro y ⟨w', q1, q2, q3, q4⟩
    exact ⟨w', ⟨q1, q2, q3⟩, by omega⟩
  · exact ⟨_, ⟨a2, n2, hT⟩, hlen⟩

theorem W_firstColumn (hc : Ctx content mem fatal u J) (h : At mem c w) (hn : N u c) :
    W u (firstColumn c) fun x => ∃ v, At mem x.1 (w ++ v) ∧ N u x.1 ∧
      ((x.2 = none ∧ ∀ b ∈ v, charIsSpace b = true) ∨ ∃ t, x.2 = some t ∧ v ≠ [] ∧ t.start = w.length ∧ t.len = v.length ∧ Lexeme t v ∧ Placed w t) := by
  unfold firstColumn
  split
  · refine W.bind (W_eatIf 13 h hn) ?_
    rintro x ⟨v, a1, hv, hsp, hcase⟩
    have hx : N u x.1 := by
      rcases hcase with ⟨_, he, _⟩ | rfl
      · rw [he]; exact hn
      · exact fun he => absurd he (h.ne hc.hm (b := 13) (r := x.1.rest) (by simpa using hsp) (by decide))
    refine W.bind (W_peek hx) ?_
    rintro b ⟨r, hr⟩
    split
    · rename_i hb
      refine W.bind (W_next hc.hm a1 hr (by rw [hb]; decide)) ?_
      rintro c2 ⟨e2, a2, n2, _⟩
      exact ⟨v ++ [b], by simpa using a2, n2, .inr ⟨_, rfl, by simp, off_eq h, by simp [Cur.tok, hv], .inr (by
        subst hb
        rcases hcase with ⟨rfl, _, _⟩ | rfl
        · exact .inl rfl
        · exact .inr rfl), placed_here h rfl rfl⟩⟩
    · refine ⟨v, a1, hx, .inl ⟨rfl, ?_⟩⟩
      rcases hcase with ⟨rfl, _, _⟩ | rfl <;> decide
  · exact ⟨[], by simpa using h, hn, .inl ⟨rfl, by simp⟩⟩

theorem W_turn (hc : Ctx content mem fatal u J) {st : State} (h : Inv mem u J st w) :
    W u (turn mem fatal st) fun z => ∀ st', z = some st' → ∃ w', Inv mem u J st' w' ∧ (w.length < w'.length ∨ st'.cur.left = 0) := by
  obtain ⟨a0, n0, t0⟩ := h
  unfold turn
  refine W.bind (W_firstColumn hc a0 n0) ?_
  rintro ⟨c1, o⟩ ⟨v, a1, n1, hcase⟩
  rcases hcase with ⟨h1, hv⟩ | ⟨nl, h1, hv, hs, hle, hx, hp⟩
  · simp only at h1 a1 n1
    subst h1
    refine W.bind (W_skipWs a1 n1) ?_
    rintro c2 ⟨v2, a2, hv2, b2, r2, hr2, hst⟩
    have hsp : ∀ b ∈ v ++ v2, charIsSpace b = true := by
      intro b hb
      rcases List.mem_append.1 hb with hb | hb
      · exact hv b hb
      · exact hv2 b hb
    have a2' : At mem c2 (w ++ (v ++ v2)) := by simpa using a2
    have hspot : Spot (w ++ (v ++ v2)) st.cur.pos.line st.cur.pos.col :=
      ⟨w, v ++ v2, rfl, hsp, by rw [a0.2], by rw [a0.2]⟩
    split
    · rename_i hl2
      rintro st' ⟨⟩
      refine ⟨_, ⟨a2', N_of hr2, T.whites t0 (.inr hsp)⟩, .inr ?_⟩
      simp only [Cur.left] at hl2 ⊢
      rw [hr2] at hl2 ⊢
      simp at hl2 ⊢
      exact hl2
    · rename_i hl2
      have hne2 : r2 ≠ [] := by
        rintro rfl
        simp [Cur.left, hr2] at hl2
      have hb2 : charIsSpace b2 = false := by
        rcases hst with rfl | h
        · exact absurd rfl hne2
        · exact h
      refine W.bind (W_peek (N_of hr2)) ?_
      rintro b ⟨r, hr⟩
      rw [hr2] at hr
      injection hr with e1 e2
      subst e1 e2
      split
      · rename_i hb35
        subst hb35
        refine W.bind (W_lexDirective hc a2' hr2 (T.whites t0 (.inr hsp)) (tok := st.cur.tok 0 .Invalid 0) hspot) ?_
        intro z hz
        cases z with
        | none => rintro st' ⟨⟩
        | some y =>
          obtain ⟨w3, q1, q2, q3, q4⟩ := hz y rfl
          obtain ⟨c3, toks3, ms3⟩ := y
          refine W.bind (W_newlineAfter hc q1 q2 q3) ?_
          rintro y4 ⟨w4, p1, p2, p3, p4⟩
          rintro st' ⟨⟩
          exact ⟨w4, ⟨p1, p2, p3⟩, .inl (by simp at q4; omega)⟩
      · refine W.bind (W_lexSwitch (t := st.cur.tok 0 .Invalid 0) hc a2' hr2 hne2 hb2 rfl) ?_
        intro f hf
        cases f with
        | comment c3 t3 =>
          obtain ⟨⟨v3, hv3, a3, n3, hl3, hk3, hj3⟩, hcm⟩ := hf
          rintro st' ⟨⟩
          have := List.length_pos_iff.2 hv3
          refine ⟨_, ⟨a3, n3, ?_⟩, .inl (by simp; omega)⟩
          rcases hj3 with hj | ⟨hst3, x, tl, rfl, hlen, hraw, htl⟩
          · exact .inl hj
          · exact T.found t0 hsp (by rw [hl3, hk3]; exact hspot) hst3 hlen (by
              rcases hraw with ⟨hinv, _⟩ | ⟨_, hsh⟩
              · exact absurd hinv hcm
              · exact .inr hsh) htl
        | token c3 t3 =>
          refine W.bind (W_finishToken hc hf t0 hsp hspot) ?_
          rintro st' ⟨w', hi, hlt⟩
          rintro _ ⟨⟩
          exact ⟨w', hi, .inl hlt⟩
  · simp only at h1 a1 n1
    subst h1
    rintro st' ⟨⟩
    have := List.length_pos_iff.2 hv
    exact ⟨_, ⟨a1, n1, T.tok0 t0 hs hle hx hp⟩, .inl (by simp; omega)⟩

theorem W_loop (hc : Ctx content mem fatal u J) : ∀ (fuel : Nat) (st : State) (w : Bytes), Inv mem u J st w → mem.length < fuel + w.length →
    W u (loop mem fatal fuel st) fun z => ∀ st', z = some st' → ∃ w', Inv mem u J st' w' ∧ st'.cur.left = 0
  | fuel, st, w, h, hf => by
    unfold loop
    split
    · rename_i hl
      rintro st' ⟨⟩
      exact ⟨w, h, hl⟩
    · rename_i hl
      cases fuel with
      | zero =>
        have := congrArg List.length h.1.1
        simp at this
        omega
      | succ fuel =>
        refine W.bind (W_turn hc h) ?_
        intro z hz
        cases z with
        | none => rintro st' ⟨⟩
        | some s2 =>
          obtain ⟨w2, h2, hp⟩ := hz s2 rfl
          rcases hp with hp | hp
          · exact W_loop hc fuel s2 w2 h2 (by omega)
          · simp only
            cases fuel <;> (unfold loop; rw [if_pos hp]; rintro st' ⟨⟩; exact ⟨w2, h2, hp⟩)
  termination_by fuel => fuel

theorem W_lex (hc : Ctx content (content ++ [0]) fatal u J) (ms : Macros) :
    W u (lex fatal ms content) fun z => ∀ y, z = some y → T J content y.1 := by
  unfold lex
  have a0 : At (content ++ [0]) ⟨content ++ [0], ⟨0, 1, 1⟩⟩ [] := ⟨rfl, rfl⟩
  have n0 : N u ⟨content ++ [0], ⟨0, 1, 1⟩⟩ := by intro h; simp at h
  refine W.bind (W_skipWs a0 n0) ?_
  rintro c ⟨v, a1, hv, b, r, hr, _⟩
  split
  · exact W_fail (by rintro y ⟨⟩)
  · refine W.bind (W_loop hc _ ⟨c, [], ms⟩ v ⟨by simpa using a1, N_of hr, ?_⟩ ?_) ?_
    · exact .inr (by simpa using Tiled.nil.whites hv)
    · simp
      omega
    · intro z hz
      cases z with
      | none => rintro y ⟨⟩
      | some st =>
        obtain ⟨w', ⟨a2, n2, t2⟩, hl⟩ := hz st rfl
        simp only
        split
        · exact W_fail (by rintro y ⟨⟩)
        · rintro y ⟨⟩
          obtain ⟨b', hb'⟩ := left_zero hl
          have := a2.1
          rw [hb'] at this
          have := List.append_inj' this rfl
          rw [this.1]
          exact t2

end

end Verif.Lex
