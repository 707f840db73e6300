import Verif.Proof.ReadEnum
/-!
# Running the parser on unions
-/
namespace Verif.Parse
open Verif.Lex (Tok)
open Verif.Ast P
open Verif.Ser hiding Env boundsText isNext

variable {e : Env} {s : St} {t u : Tok} {ts vs more rest : List Tok} {x y : Bytes} {a b n : Nat}

/-- The body of a union. -/
theorem unionBody_run {r : Rec} {inner : List Tok} {o z : Tok} (hr : Reads e rest n (.union (unionMember r)) inner y) (ho : o.type = .BraceCurly_Open)
    (hz : z.type = .BraceCurly_Close) (hn : n ≤ s.heap.next) (hn0 : 0 < s.heap.next) (hc : Consts e n s.heap) (hm : 1 ≤ (more ++ rest).length)
    (h : Here e s (o :: inner ++ z :: more) rest) :
    ∃ h' ps ys, unionBody r e s = .ok (s.heap.next, ⟨s.idx + (inner.length + 2), h', s.scope⟩) ∧ BodyHas .Union_Body s.heap.next h' ps ys ∧ ys.flatten = y ∧
      s.heap.next < h'.next ∧ Agree 1 s.heap.next s.heap h' := by
  have heat := h.eat
  rw [ho] at heat
  have hb := bodyHas_new (ty := .Union_Body) hn0
  have hk : Kept s.heap (grown s.heap { type := .Union_Body }) := kept_grown _ _
  have ha : Agree 1 s.heap.next s.heap (grown s.heap { type := .Union_Body }) := agree_kept (Nat.succ_pos _) (Nat.le_refl _) hk
  have hh : Here e ⟨s.idx + 1, grown s.heap { type := .Union_Body }, s.scope⟩ (inner ++ z :: more) rest := (h.tail.heap _ _).at rfl
  obtain ⟨h', ps, ys, m, r1, r2, r3, r4, r5, r6⟩ := hr .Union_Body s.heap.next ⟨s.idx + 1, grown s.heap { type := .Union_Body }, s.scope⟩ [] [] (z :: more)
    trivial hb hn (hc.keep (ha.mono (Nat.le_refl _) hn) (Nat.le_succ _)) (.brace hz hm) (fun hh => by cases hh) hh
  have r5 : s.heap.next + 1 ≤ h'.next := r5
  have hl := h.length_le
  simp only [List.length_append, List.length_cons] at hl
  refine ⟨h', ps, ys, ?_, by simpa using r3, r4, by omega, ha.trans r6⟩
  unfold unionBody
  refine bind_run heat ?_
  refine bind_run (make_run (e := e) (s := s.adv 1) hn0 { type := .Union_Body }) ?_
  refine bind_run (a := ()) (s' := ⟨s.idx + 1 + inner.length, h', s.scope⟩) (r2.loop (by omega)) ?_
  have hz' : Here e ⟨s.idx + 1 + inner.length, h', s.scope⟩ (z :: more) rest := (hh.advN.heap _ _).at rfl
  have := hz'.eat
  rw [hz] at this
  refine bind_run this ?_
  simp only [St.adv, pureP]
  congr 3
  omega

theorem UnionHead.types {c : Bytes} {hx : Bytes} {hs : List Tok} (hH : UnionHead c hx hs) : ∀ t ∈ hs, t.type ∉ [TokType.BraceCurly_Open, .BraceCurly_Close, .Statement_End] := by
  intro t ht
  cases hH with
  | named h1 h2 =>
    simp only [List.mem_cons, List.not_mem_nil, or_false] at ht
    rcases ht with rfl | rfl
    · rw [h1]; decide
    · rw [h2.1.type]; decide
  | unnamed h1 =>
    simp only [List.mem_cons, List.not_mem_nil, or_false] at ht
    subst ht
    rw [h1]; decide

theorem UnionHead.first {c : Bytes} {hx : Bytes} {hs : List Tok} (hH : UnionHead c hx hs) : ∃ t tl, hs = t :: tl ∧ t.type = .Decl_Union := by
  cases hH with
  | named h => exact ⟨_, _, rfl, h⟩
  | unnamed h => exact ⟨_, _, rfl, h⟩

/-- A union. -/
theorem union_gives {r : Rec} {hx : Bytes} {hs inner : List Tok} {o z : Tok} (hH : UnionHead e.mem hx hs) (hr : Reads e rest n (.union (unionMember r)) inner y)
    (ho : TokIs e.mem o .BraceCurly_Open 0 b!"{") (hz : z.type = .BraceCurly_Close) (hu : u.type = .Statement_End) (hn : n ≤ s.heap.next) (hn0 : 0 < s.heap.next) (hc : Consts e n s.heap)
    (h : Here e s (hs ++ o :: inner ++ z :: u :: more) rest) :
    Gives (parseUnion r false) e s (hs.length + (inner.length + 3)) (hx ++ b!"\n{\n" ++ y ++ b!"\n};\n") := by
  refine Gives.scope ?_
  obtain ⟨sc, hsc⟩ : ∃ sc, sc = b!"parser_parse_union" :: s.scope := ⟨_, rfl⟩
  rw [← hsc]
  have g0 : Here e ⟨s.idx, s.heap, sc⟩ (hs ++ (o :: inner ++ z :: u :: more)) rest := by simpa using h.heap s.heap sc
  have g1 : Here e ⟨s.idx + hs.length, s.heap, sc⟩ (o :: inner ++ z :: u :: more) rest := (g0.advN.heap s.heap sc).at rfl
  obtain ⟨h2, ps, ys, w1, w2, w3, w4, w5⟩ := unionBody_run (s := ⟨s.idx + hs.length, s.heap, sc⟩) (more := u :: more) hr ho.type hz hn hn0 hc (by simp) g1
  have w4 : s.heap.next < h2.next := w4
  have g2 : Here e ⟨s.idx + hs.length + (inner.length + 2), h2, sc⟩ (u :: more) rest := by
    have := (Here.advN (ts := o :: inner ++ [z]) (more := u :: more) (by simpa using g1)).heap h2 sc
    exact this.at (by simp [St.adv])
  have e2 := g2.eat
  rw [hu] at e2
  have hfo : isFmt o = false := isFmt_of_type ho.type (by decide) (by decide)
  have hfa : has o Lex.fAttribute = false := by unfold has; rw [ho.flags]; rfl
  -- everything behind the name
  have tail : ∀ name : Bytes, (do
      let bare ← if false then check .Identifier else pure false
      let body ← if bare then pure 0 else unionBody r
      if !false then eat .Statement_End
      make { type := if body = 0 then .Union_Fwd else .Union, name := name, moduleFlags := 0, body := body, attributes := 0 } : P Nat) e ⟨s.idx + hs.length, s.heap, sc⟩ =
      .ok (h2.next, ⟨s.idx + (hs.length + (inner.length + 3)), grown h2 { type := .Union, name := name, body := s.heap.next }, sc⟩) := by
    intro name
    simp only [Bool.false_eq_true, if_false, Bool.not_false, if_true]
    refine bind_run (pureP _ _ _) ?_
    simp only [Bool.false_eq_true, if_false]
    refine bind_run w1 ?_
    refine bind_run e2 ?_
    rw [if_neg (by show s.heap.next ≠ 0; omega), make_run (by show 0 < h2.next; omega)]
    simp [St.adv]
    omega
  have key : ∃ name : Bytes, hx = b!"union " ++ name ∧ (do
      let mflags ← exportFlag
      eat .Decl_Union
      let attrs ← attributes
      let name ← do
        if ← check .Identifier then
          let b ← bytes (.of (← cur))
          eat .Identifier
          pure b
        else pure []
      let bare ← if false then check .Identifier else pure false
      let body ← if bare then pure 0 else unionBody r
      if !false then eat .Statement_End
      make { type := if body = 0 then .Union_Fwd else .Union, name := name, moduleFlags := mflags, body := body, attributes := attrs } : P Nat) e ⟨s.idx, s.heap, sc⟩ =
      .ok (h2.next, ⟨s.idx + (hs.length + (inner.length + 3)), grown h2 { type := .Union, name := name, body := s.heap.next }, sc⟩) := by
    cases hH with
    | @named t i name ht hi =>
      have k0 : Here e ⟨s.idx, s.heap, sc⟩ (t :: i :: (o :: inner ++ z :: u :: more)) rest := by simpa using g0
      have hft : isFmt t = false := isFmt_of_type ht (by decide) (by decide)
      have hfi : isFmt i = false := isFmt_of_type hi.1.type (by decide) (by decide)
      have hai : has i Lex.fAttribute = false := by unfold has; rw [hi.1.flags]; rfl
      have e0 := k0.eat
      rw [ht] at e0
      have e1 := k0.tail.eat
      rw [hi.1.type] at e1
      refine ⟨name, rfl, ?_⟩
      refine bind_run (k0.exportFlag hft (by rw [ht]; decide)) ?_
      refine bind_run e0 ?_
      refine bind_run (k0.tail.attributes hfi hai) ?_
      refine bind_run (k0.tail.check hfi _) ?_
      simp only [hi.1.type, decide_true, if_true]
      refine bind_run (k0.tail.cur hfi) ?_
      refine bind_run hi.1.bytesP ?_
      refine bind_run e1 ?_
      refine bind_run (pureP _ _ _) ?_
      exact tail name
    | @unnamed t ht =>
      have k0 : Here e ⟨s.idx, s.heap, sc⟩ (t :: (o :: inner ++ z :: u :: more)) rest := by simpa using g0
      have hft : isFmt t = false := isFmt_of_type ht (by decide) (by decide)
      have e0 := k0.eat
      rw [ht] at e0
      refine ⟨[], rfl, ?_⟩
      refine bind_run (k0.exportFlag hft (by rw [ht]; decide)) ?_
      refine bind_run e0 ?_
      refine bind_run (k0.tail.attributes hfo hfa) ?_
      refine bind_run (k0.tail.check hfo _) ?_
      simp only [ho.type, reduceCtorEq, decide_false, Bool.false_eq_true, if_false]
      refine bind_run (pureP _ _ _) ?_
      exact tail []
  obtain ⟨name, hx1, hrun⟩ := key
  obtain ⟨N, hN⟩ : ∃ N : Node, N = { type := .Union, name := name, body := s.heap.next } := ⟨_, rfl⟩
  rw [← hN] at hrun
  refine ⟨h2.next, grown h2 N, hrun, ?_, by show s.heap.next ≤ _; omega, rfl, ?_, ?_⟩
  · exact w5.trans (agree_kept (Nat.succ_pos _) (by show s.heap.next ≤ h2.next; omega) (kept_grown h2 N))
  · unfold Single
    rw [hN]
    simp [grown, isBodyType]
  · intro E par f k a1 a2 a3 a4 hf
    have hp : E.h.cell h2.next = { type := .Union, name := name, body := s.heap.next, parent := par, front := f, back := k } := by
      rw [a3, hN]
      simp [grown]
    have hag : Agree s.heap.next h2.next h2 E.h := (agree_kept hn0 (Nat.le_refl _) (kept_grown h2 N)).trans a1
    have hst := w2.stands rfl
    rw [w3] at hst
    have hfy : Fits y := (Fits.append (Fits.append hf).1).2
    have h3 : exportText (E.h.cell h2.next) = [] := by rw [hp]; rfl
    have h6 : attrText E (E.h.cell h2.next) = [] := by rw [hp]; rfl
    have h7 : ∀ x, endText E (E.h.cell h2.next) x = x := by
      intro x
      unfold endText
      rw [hp]
      exact neutral_end a4
    refine (C45_union (e := E) (n := E.h.cell h2.next) (t := y) ⟨a2, rfl, by rw [hp]⟩ (by rw [hp]; exact hst.says E hag hfy) (by rw [hp]; exact fun hh => absurd rfl hh)
      (by rw [hp]; exact Neutral.slot a4)).print' ?_ hf
    rw [h3, h6, h7, hp, hx1]
    simp

end Verif.Parse
