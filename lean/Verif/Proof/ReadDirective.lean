import Verif.Proof.ReadBases
/-!
# Directives
-/
namespace Verif.Parse
open Verif.Lex (Tok)
open Verif.Ast P
open Verif.Ser hiding Env boundsText isNext

variable {e : Env} {s : St} {t u : Tok} {ts more rest : List Tok} {x y name : Bytes} {a b : Nat}

/-- The types of the directives that keep their text. -/
abbrev directiveTypes : List (CodeType × Bytes × Bytes) :=
  [(CodeType.Preprocess_Include, b!"#include ", b!"\n"), (.Preprocess_Pragma, b!"#pragma ", b!"\n"),
      (.Preprocess_If, b!"#if ", b!""), (.Preprocess_IfDef, b!"#ifdef ", b!"\n"), (.Preprocess_IfNotDef, b!"#ifndef ", b!""),
      (.Preprocess_ElIf, b!"#elif ", b!"\n")]

/-- A node that keeps the text of a directive. -/
theorem kept_gives {f : P Nat} {m : Nat} {ty : CodeType} {w v : Bytes} (hd : (ty, w, v) ∈ directiveTypes) (hx : x ≠ []) (hn : 0 < s.heap.next)
    (hr : f e s = .ok (s.heap.next, ⟨s.idx + m, changed (grown s.heap { type := ty }) s.heap.next { type := ty, content := x }, s.scope⟩)) : Gives f e s m (w ++ x ++ v) := by
  refine ⟨_, _, hr, ?_, Nat.le_refl _, rfl, ?_, ?_⟩
  · intro q q1 q2
    have : q ≠ s.heap.next := by omega
    exact ⟨⟨q1, by show q < s.heap.next + 1; omega⟩, by simp [changed, grown, this]⟩
  · unfold Single
    simp only [changed, if_true]
    refine ⟨trivial, ?_⟩
    simp only [directiveTypes, List.mem_cons, Prod.mk.injEq, List.not_mem_nil, or_false] at hd
    rcases hd with ⟨rfl, -⟩ | ⟨rfl, -⟩ | ⟨rfl, -⟩ | ⟨rfl, -⟩ | ⟨rfl, -⟩ | ⟨rfl, -⟩ <;> rfl
  · intro E k f' k' _ h2 h3 _
    simp only [changed, if_true] at h3
    have := C48_directive (e := E) (p := s.heap.next) (n := E.h.cell s.heap.next) (ty := ty) (before := w) (after := v) ⟨h2, rfl, by rw [h3]⟩ hd
    have hc : contentText E s.heap.next = x := by
      unfold contentText strText
      rw [h3]
      rw [if_neg (fun hh => hx hh.1)]
    rwa [hc] at this

theorem include_gives {fl : Nat} (ht : t.type = .Preprocess_Include) (hu : TokIs e.mem u .String fl x) (hx : x ≠ []) (hn : 0 < s.heap.next) (h : Here e s (t :: u :: ts) rest) :
    Gives parseInclude e s 2 (b!"#include " ++ x ++ b!"\n") := by
  refine Gives.scope (kept_gives (ty := .Preprocess_Include) (by simp) hx hn ?_)
  obtain ⟨sc, hsc⟩ : ∃ sc, sc = b!"parse_include" :: s.scope := ⟨_, rfl⟩
  rw [← hsc]
  obtain ⟨N, hN⟩ : ∃ N : Node, N = { type := .Preprocess_Include } := ⟨_, rfl⟩
  have g0 : Here e ⟨s.idx, grown s.heap N, sc⟩ (t :: u :: ts) rest := h.heap _ _
  have g1 : Here e ⟨s.idx + 1, grown s.heap N, sc⟩ (u :: ts) rest := g0.tail.at rfl
  obtain ⟨h2, hh2⟩ : ∃ h2, h2 = changed (grown s.heap N) s.heap.next { type := .Preprocess_Include, content := x } := ⟨_, rfl⟩
  have g2 : Here e ⟨s.idx + 1, h2, sc⟩ (u :: ts) rest := g1.at rfl
  have e0 := g0.eat
  have e1 := g2.eat
  rw [ht] at e0
  rw [hu.type] at e1
  have huf : isFmt u = false := isFmt_of_type hu.type (by decide) (by decide)
  refine bind_run (make_run (s := ⟨s.idx, s.heap, sc⟩) hn _) ?_
  rw [← hN]
  refine bind_run e0 ?_
  refine bind_run (g1.check huf _) ?_
  simp only [hu.type, decide_true, Bool.not_true, Bool.false_eq_true, if_false]
  refine bind_run (g1.cur huf) ?_
  refine bind_run hu.bytesP ?_
  refine bind_run (upd_run (s := ⟨s.idx + 1, grown s.heap N, sc⟩) ⟨hn, Nat.lt_succ_self _⟩) ?_
  rw [show ({ (grown s.heap N).cell s.heap.next with content := x } : Node) = { type := .Preprocess_Include, content := x } by simp [grown, hN]]
  rw [← hh2]
  exact bind_run e1 rfl

theorem pragma_gives {fl : Nat} (ht : t.type = .Preprocess_Pragma) (hu : TokIs e.mem u .Preprocess_Content fl x) (hx : x ≠ []) (hn : 0 < s.heap.next)
    (h : Here e s (t :: u :: ts) rest) : Gives pragma e s 2 (b!"#pragma " ++ x ++ b!"\n") := by
  refine Gives.scope (kept_gives (ty := .Preprocess_Pragma) (by simp) hx hn ?_)
  obtain ⟨sc, hsc⟩ : ∃ sc, sc = b!"parse_pragma" :: s.scope := ⟨_, rfl⟩
  rw [← hsc]
  obtain ⟨N, hN⟩ : ∃ N : Node, N = { type := .Preprocess_Pragma } := ⟨_, rfl⟩
  have g0 : Here e ⟨s.idx, grown s.heap N, sc⟩ (t :: u :: ts) rest := h.heap _ _
  have g1 : Here e ⟨s.idx + 1, grown s.heap N, sc⟩ (u :: ts) rest := g0.tail.at rfl
  obtain ⟨h2, hh2⟩ : ∃ h2, h2 = changed (grown s.heap N) s.heap.next { type := .Preprocess_Pragma, content := x } := ⟨_, rfl⟩
  have g2 : Here e ⟨s.idx + 1, h2, sc⟩ (u :: ts) rest := g1.at rfl
  have e0 := g0.eat
  have e1 := g2.eat
  rw [ht] at e0
  rw [hu.type] at e1
  have huf : isFmt u = false := isFmt_of_type hu.type (by decide) (by decide)
  refine bind_run (make_run (s := ⟨s.idx, s.heap, sc⟩) hn _) ?_
  rw [← hN]
  refine bind_run e0 ?_
  refine bind_run (g1.check huf _) ?_
  simp only [hu.type, decide_true, Bool.not_true, Bool.false_eq_true, if_false]
  refine bind_run (g1.cur huf) ?_
  refine bind_run hu.bytesP ?_
  refine bind_run (upd_run (s := ⟨s.idx + 1, grown s.heap N, sc⟩) ⟨hn, Nat.lt_succ_self _⟩) ?_
  rw [show ({ (grown s.heap N).cell s.heap.next with content := x } : Node) = { type := .Preprocess_Pragma, content := x } by simp [grown, hN]]
  rw [← hh2]
  exact bind_run e1 rfl

theorem Tests.type {ty : TokType} {w v : Bytes} (h : Tests ty w v) : (condType ty, w, v) ∈ directiveTypes ∧ ty ≠ .NewLine ∧ ty ≠ .Comment := by
  cases h <;> exact ⟨by simp [condType], by decide, by decide⟩

theorem test_gives {fl : Nat} {w v : Bytes} (ht : Tests t.type w v) (hf : t.flags = 16) (hu : TokIs e.mem u .Preprocess_Content fl x) (hx : x ≠ []) (hn : 0 < s.heap.next)
    (h : Here e s (t :: u :: ts) rest) : Gives preprocessCond e s 2 (w ++ x ++ v) := by
  obtain ⟨hd, hw1, hw2⟩ := ht.type
  refine Gives.scope (kept_gives hd hx hn ?_)
  obtain ⟨sc, hsc⟩ : ∃ sc, sc = b!"parse_preprocess_cond" :: s.scope := ⟨_, rfl⟩
  rw [← hsc]
  obtain ⟨N, hN⟩ : ∃ N : Node, N = { type := condType t.type } := ⟨_, rfl⟩
  have g00 : Here e ⟨s.idx, s.heap, sc⟩ (t :: u :: ts) rest := h.heap _ _
  have g0 : Here e ⟨s.idx, grown s.heap N, sc⟩ (t :: u :: ts) rest := h.heap _ _
  have g1 : Here e ⟨s.idx + 1, grown s.heap N, sc⟩ (u :: ts) rest := g0.tail.at rfl
  obtain ⟨h2, hh2⟩ : ∃ h2, h2 = changed (grown s.heap N) s.heap.next { type := condType t.type, content := x } := ⟨_, rfl⟩
  have g2 : Here e ⟨s.idx + 1, h2, sc⟩ (u :: ts) rest := g1.at rfl
  have e0 := g0.eat
  have e1 := g2.eat
  rw [hu.type] at e1
  have huf : isFmt u = false := isFmt_of_type hu.type (by decide) (by decide)
  have htf : isFmt t = false := isFmt_of_type rfl hw1 hw2
  refine bind_run (g00.cur htf) ?_
  simp only [show has t Lex.fPreprocessCond = true by unfold has; rw [hf]; rfl, Bool.not_true, Bool.false_eq_true, if_false]
  refine bind_run (g00.cur htf) ?_
  refine bind_run (make_run (s := ⟨s.idx, s.heap, sc⟩) hn _) ?_
  rw [← hN]
  refine bind_run (a := ()) (s' := ⟨s.idx + 1, grown s.heap N, sc⟩) ?_ ?_
  · unfold eatAny
    exact bind_run (g0.cur htf) e0
  refine bind_run (g1.check huf _) ?_
  simp only [hu.type, decide_true, Bool.not_true, Bool.false_eq_true, if_false]
  refine bind_run (g1.cur huf) ?_
  refine bind_run hu.bytesP ?_
  refine bind_run (upd_run (s := ⟨s.idx + 1, grown s.heap N, sc⟩) ⟨hn, Nat.lt_succ_self _⟩) ?_
  rw [show ({ (grown s.heap N).cell s.heap.next with content := x } : Node) = { type := condType t.type, content := x } by simp [grown, hN]]
  rw [← hh2]
  exact bind_run e1 rfl

/-! ## Macros -/

/-- The text of a macro, as it is kept. -/
theorem MacroText.run {c : Bytes} (hc : e.mem = c) (h : MacroText c t x) : ∃ fl raw, TokIs e.mem t .Preprocess_Content fl raw ∧ x ≠ [] ∧
    (if t.len = 0 then pure b!"\n" else stripped raw) e s = .ok (x, s) := by
  subst hc
  cases h with
  | none h1 =>
    refine ⟨_, _, h1, by decide, ?_⟩
    rw [if_pos (by rw [h1.len]; rfl)]
    rfl
  | @text fl raw x h1 h2 =>
    obtain ⟨w1, w2⟩ := tidied_strip h2
    refine ⟨_, _, h1, w2, ?_⟩
    have : raw ≠ [] := by
      rintro rfl
      rw [show Strip.strip [] = .ok [] by decide +kernel] at w1
      cases w1
      exact w2 rfl
    rw [if_neg (by rw [h1.len]; simpa using this)]
    show (Strip.strip raw).bind _ = _
    rw [w1]
    rfl
  | @spaced fl raw x h1 h2 =>
    obtain ⟨-, w2⟩ := tidied_strip h2
    refine ⟨_, _, h1, w2, ?_⟩
    rw [if_neg (by rw [h1.len]; simp)]
    obtain ⟨w, g, hw, hg, hraw, hx⟩ := h2
    show (Strip.strip (b!" " ++ raw)).bind _ = _
    rw [hraw, hx]
    rw [show b!" " ++ (w ++ Strip.spread g) = 32 :: (w ++ Strip.spread g) from rfl, (Strip.C55_words hw hg).2]
    rfl

/-- The parameters of a macro, made between `a` and `b`. -/
structure NamesList (h : Heap) (a r : Nat) (xs : List Bytes) (b : Nat) (l : List Nat) : Prop where
  list : IsParams h r l (l.length + 1)
  bounds : ∀ q ∈ r :: l, a ≤ q ∧ q < b
  names : (r :: l).map (fun q => (h.cell q).name) = xs
  nums : ∀ q ∈ l, (h.cell q).num = 0

theorem NamesList.agree {h g : Heap} {r : Nat} {xs : List Bytes} {l : List Nat} (hp : NamesList h a r xs b l) (ha : Agree a b h g) : NamesList g a r xs b l := by
  obtain ⟨h1, h2, h3, h4⟩ := hp
  have hc : ∀ q, q = r ∨ q ∈ l → g.Valid q ∧ g.cell q = h.cell q := fun q hq => ha q (h2 q (by simpa using hq)).1 (h2 q (by simpa using hq)).2
  refine ⟨IsParams.agree h1 hc, h2, ?_, fun q hq => by rw [(hc q (.inr hq)).2]; exact h4 q hq⟩
  rw [← h3]
  refine List.map_congr_left fun q hq => ?_
  rw [(hc q (by simpa using hq)).2]

theorem wrapped_intercalate : ∀ (x : Bytes) (ts : List Bytes), x ++ wrapped b!", " b!"" ts = b!", ".intercalate (x :: ts) := by
  intro x ts
  induction ts generalizing x with
  | nil => simp [wrapped, List.intercalate]
  | cons y ts ih =>
    have := ih y
    simp only [wrapped, List.intercalate, List.flatMap_cons, List.intersperse_cons_cons, List.flatten_cons] at this ⊢
    rw [← this]
    simp

theorem names_stands {h : Heap} {r : Nat} {xs : List Bytes} {l : List Nat} (hp : NamesList h a r xs b l) (hx : ∀ y ∈ xs, y ≠ []) :
    Stands .defParams a b h r (b!", ".intercalate (xs.map fun y => b!" " ++ y)) := by
  obtain ⟨hb1, hb2⟩ := hp.bounds r List.mem_cons_self
  refine ⟨hb1, hb2, fun E hE hf => ?_⟩
  obtain ⟨h1, h2, h3, h4⟩ := hp.agree hE
  subst h3
  have hfs := fits_intercalate hf
  have hall : ∀ q ∈ r :: l, E.h.Valid q ∧ (E.h.cell q).name ≠ [] ∧ Fits (b!" " ++ (E.h.cell q).name) := fun q hq =>
    ⟨(hE q (h2 q hq).1 (h2 q hq).2).1, hx _ (List.mem_map_of_mem hq), hfs _ (List.mem_map_of_mem (List.mem_map_of_mem hq))⟩
  have hpa : ∀ {l' : List Nat}, (∀ q ∈ l', q ∈ l) → PrintAll E .defParams l' (l'.map fun q => b!" " ++ (E.h.cell q).name) := by
    intro l'
    induction l' with
    | nil => intro _; trivial
    | cons q l' ih =>
      intro hq
      refine ⟨?_, ih fun y hy => hq y (List.mem_cons_of_mem _ hy)⟩
      have hm := hq q List.mem_cons_self
      obtain ⟨v1, v2, v3⟩ := hall q (List.mem_cons_of_mem _ hm)
      refine EG.says (EG.reading (Res.assert_true (Nat.ne_of_gt v1.1)) (EG.reading (get_ok v1) ?_)) v3
      refine EG.congr (EG.seq (EG.opt fun _ => EG.fmt E [.lit b!" ", .s _ _] rfl rfl rfl) (EG.opt (t := []) fun hh => absurd hh (by rw [h4 q hm]; decide))) ?_
      simp [ifText, v2, textOf, strText]
  obtain ⟨v1, v2, v3⟩ := hall r List.mem_cons_self
  have key := C48_define_param_list v1 v2 (linked_of_params h1) (hpa (l' := l) fun _ hq => hq)
  refine (key.cast ?_) hf
  have hc : (E.h.cell r).num - 1 > 0 ↔ l ≠ [] := by
    rw [h1.count]
    cases l <;> simp <;> omega
  rw [List.map_cons, List.map_cons, ← wrapped_intercalate, List.map_map]
  congr 1
  by_cases hl0 : l = []
  · subst hl0
    simp [ifText, wrapped]
  · rw [ifText, if_pos (hc.2 hl0)]
    rfl

/-- One turn of the loop over the further names. -/
def nameTurn (r : Nat) : Unit → P (Bool × Unit) := fun _ => do
  if ← leftAnd (·.type ≠ .Paren_Close) then
    eat .Comma
    let p ← make { type := .Parameters_Define }
    let b ← bytes (.of (← cur))
    change fun h => h.upd p fun n => { n with name := b }
    change fun h => paramsAppend h r p
    eat .Preprocess_Define_Param
    return (true, ())
  else return (false, ())

theorem moreNames_run {z : Tok} {xs : List Bytes} (h0 : 0 < a) (hM : MoreNames e.mem xs ts) (hz : z.type = .Paren_Close) :
    ∀ {s : St} {r : Nat} {ys : List Bytes} {l : List Nat}, a ≤ s.heap.next → NamesList s.heap a r ys s.heap.next l → Here e s (ts ++ z :: more) rest →
    ∃ h' l' n, n ≤ ts.length + 1 ∧ Turns (nameTurn r) e n () s () ⟨s.idx + ts.length, h', s.scope⟩ ∧
      Agree 1 a s.heap h' ∧ s.heap.next ≤ h'.next ∧ NamesList h' a r (ys ++ xs) h'.next l' := by
  induction hM with
  | nil =>
    intro s r ys l han hp h
    have hzf : isFmt z = false := isFmt_of_type hz (by decide) (by decide)
    refine ⟨s.heap, l, 1, Nat.le_refl _, .stop ?_, fun q q1 q2 => ⟨⟨q1, by omega⟩, rfl⟩, Nat.le_refl _, by rw [List.append_nil]; exact hp⟩
    rw [List.nil_append] at h
    refine bind_run (h.leftAnd hzf _) ?_
    simp only [hz, ne_eq, not_true_eq_false, decide_false, Bool.false_eq_true, if_false]
    rfl
  | @cons u n fl name xs us hu hn hne hM ih =>
    intro s r ys l han hp h
    have huf : isFmt u = false := isFmt_of_type hu (by decide) (by decide)
    have hnf : isFmt n = false := isFmt_of_type hn.type (by decide) (by decide)
    have h : Here e s (u :: n :: (us ++ z :: more)) rest := by simpa using h
    have heat := h.eat
    rw [hu] at heat
    have hn0 : 0 < s.heap.next := by omega
    obtain ⟨N0, hN0⟩ : ∃ N : Node, N = { type := .Parameters_Define } := ⟨_, rfl⟩
    obtain ⟨N, hN⟩ : ∃ N : Node, N = { type := .Parameters_Define, name := name } := ⟨_, rfl⟩
    obtain ⟨g, hg⟩ : ∃ g, g = changed (grown s.heap N0) s.heap.next N := ⟨_, rfl⟩
    have hgn : g.next = s.heap.next + 1 := by rw [hg]; rfl
    have hcn : g.cell s.heap.next = N := by rw [hg]; simp [changed]
    have hvn : g.Valid s.heap.next := ⟨hn0, by omega⟩
    have hsame : ∀ q, 0 < q → q < s.heap.next → g.Valid q ∧ g.cell q = s.heap.cell q := fun q w1 w2 => by
      have : q ≠ s.heap.next := by omega
      exact ⟨⟨w1, by omega⟩, by rw [hg]; simp [changed, grown, this]⟩
    obtain ⟨p1, hbd, p2, p3⟩ := hp.agree (g := g) (fun q q1 q2 => hsame q (by omega) q2)
    have hrb := hbd r List.mem_cons_self
    have hner : s.heap.next ≠ r := by omega
    obtain ⟨h3, o, r2, p4, p5, p6, p7, p8, p9, p10, -, -⟩ := paramsAppend_spec p1 hvn hner (by rw [hcn, hN])
    rw [hcn, hN] at p5
    simp only [if_true] at p5
    subst p5
    have hfr : (g.cell r).front = 0 ∨ (g.Valid (g.cell r).front ∧ (g.cell r).front ∈ l) := by
      cases hq : l.getLast? with
      | none => exact .inl (p1.first (List.getLast?_eq_none_iff.1 hq))
      | some y =>
        rw [p1.last y hq]
        have hy := List.mem_of_getLast? hq
        have := hbd y (List.mem_cons_of_mem _ hy)
        exact .inr ⟨(hsame y (by omega) this.2).1, hy⟩
    obtain ⟨f1, f2⟩ := paramsAppend_frame p1.valid hvn hner (by rw [hcn, hN]) (hfr.imp id And.left) r2
    have hcell : ∀ q, q ∉ r :: (l ++ [s.heap.next]) → q ≠ 0 → h3.cell q = g.cell q := by
      intro q hq hq0
      refine (f2 q).2 (fun hh => hq (by simp [hh])) (fun hh => hq (by simp [hh])) (fun hh => ?_)
      rcases hfr with hm | ⟨-, hm⟩
      · exact hq0 (hh.trans hm)
      · rw [← hh] at hm
        exact hq (by simp [hm])
    have hnm : ∀ q, (h3.cell q).name = (g.cell q).name := fun q => by rw [(f2 q).1]
    have hpl : NamesList h3 a r (ys ++ [name]) h3.next (l ++ [s.heap.next]) := by
      refine ⟨?_, ?_, ?_, ?_⟩
      · have : ((l ++ [s.heap.next]).length : Int) + 1 = (l.length : Int) + 1 + 1 := by simp
        rw [this]
        exact p4
      · intro q hq
        rw [f1, hgn]
        rw [← List.cons_append, List.mem_append] at hq
        rcases hq with hq | hq
        · have := hbd q hq
          omega
        · rw [List.mem_singleton] at hq
          omega
      · rw [← p2, ← List.cons_append, List.map_append]
        simp only [hnm, List.map_cons, List.map_nil, hcn, hN]
      · intro q hq
        rcases List.mem_append.1 hq with hq | hq
        · have hb := hbd q (List.mem_cons_of_mem _ hq)
          have hqr : q ≠ r := fun hh => p1.self (hh ▸ hq)
          have : (h3.cell q).payload = (g.cell q).payload := p9 q (hsame q (by omega) hb.2).1 hqr
          have hnum : (h3.cell q).payload.num = (g.cell q).payload.num := by rw [this]
          have hnum : (h3.cell q).num = (g.cell q).num := hnum
          rw [hnum]
          exact p3 q hq
        · rw [List.mem_singleton] at hq
          subst hq
          rw [p8, hcn, hN]
    have g1 : Here e ⟨s.idx + 1, grown s.heap N0, s.scope⟩ (n :: (us ++ z :: more)) rest := h.tail.at rfl
    have g2 : Here e ⟨s.idx + 1, h3, s.scope⟩ (n :: (us ++ z :: more)) rest := h.tail.at rfl
    have hh3 : Here e ⟨s.idx + 1 + 1, h3, s.scope⟩ (us ++ z :: more) rest := g2.tail.at rfl
    have e2 := g2.eat
    rw [hn.type] at e2
    obtain ⟨h', l', m, m1, m2, m3, m4, m5⟩ := ih (s := ⟨s.idx + 1 + 1, h3, s.scope⟩) (r := r) (ys := ys ++ [name]) (l := l ++ [s.heap.next]) (by show a ≤ h3.next; omega) hpl hh3
    have m4 : h3.next ≤ h'.next := m4
    refine ⟨h', l', m + 1, by simp; omega, .go (y := ()) (s' := ⟨s.idx + 1 + 1, h3, s.scope⟩) ?_ ?_, ?_, by omega, by simpa using m5⟩
    · refine bind_run (h.leftAnd huf _) ?_
      simp only [hu, ne_eq, reduceCtorEq, not_false_eq_true, decide_true, if_true]
      refine bind_run heat ?_
      refine bind_run (make_run (s := ⟨s.idx + 1, s.heap, s.scope⟩) hn0 _) ?_
      rw [← hN0]
      refine bind_run (g1.cur hnf) ?_
      refine bind_run hn.bytesP ?_
      refine bind_run (upd_run (s := ⟨s.idx + 1, grown s.heap N0, s.scope⟩) ⟨hn0, Nat.lt_succ_self _⟩) ?_
      rw [show ({ (grown s.heap N0).cell s.heap.next with name := name } : Node) = N by simp [grown, hN0, hN]]
      rw [← hg]
      refine bind_run (s' := ⟨s.idx + 1, h3, s.scope⟩) (a := ()) ?_ (bind_run e2 rfl)
      show (paramsAppend g r s.heap.next).bind _ = _
      rw [r2]
      rfl
    · have : s.idx + (u :: n :: us).length = s.idx + 1 + 1 + us.length := by simp; omega
      rw [this]
      exact m2
    · intro q w1 w2
      obtain ⟨k1, k2⟩ := m3 q w1 w2
      refine ⟨k1, k2.trans ?_⟩
      have hqn : q ∉ r :: (l ++ [s.heap.next]) := by
        intro hm
        rw [← List.cons_append, List.mem_append] at hm
        rcases hm with hm | hm
        · have := hbd q hm
          omega
        · rw [List.mem_singleton] at hm
          omega
      exact (hcell q hqn (by omega)).trans (hsame q w1 (by omega)).2

theorem MoreNames.ne {c : Bytes} {xs : List Bytes} (h : MoreNames c xs ts) : ∀ y ∈ xs, y ≠ [] := by
  induction h with
  | nil => intro _ hy; cases hy
  | cons _ _ hne _ ih =>
    intro y hy
    rcases List.mem_cons.1 hy with rfl | hy
    · exact hne
    · exact ih y hy

theorem MoreNames.next {c : Bytes} {xs : List Bytes} {z : Tok} (h : MoreNames c xs ts) (hz : z.type = .Paren_Close) : ∃ w wl, ts ++ z :: more = w :: wl ∧ isFmt w = false := by
  cases h with
  | nil => exact ⟨z, more, rfl, isFmt_of_type hz (by decide) (by decide)⟩
  | cons hu _ _ _ => exact ⟨_, _, rfl, isFmt_of_type hu (by decide) (by decide)⟩

theorem defineParams_eq : defineParams = (do
    eat .Paren_Open
    let r ← make { type := .Parameters_Define }
    if ← leftAnd (·.type ≠ .Paren_Close) then
      let b ← bytes (.of (← cur))
      change fun h => h.upd r fun n => { n with name := b, num := n.num + 1 }
      eat .Preprocess_Define_Param
    let _ ← loop (nameTurn r) ()
    eat .Paren_Close
    return r) := rfl

theorem defineParams_run (hP : NamesToks e.mem x ts) (hn : 0 < s.heap.next) (h : Here e s (ts ++ more) rest) :
    ∃ h', defineParams e s = .ok (s.heap.next, ⟨s.idx + ts.length, h', s.scope⟩) ∧ Agree 1 s.heap.next s.heap h' ∧ s.heap.next < h'.next ∧
      Stands .defParams s.heap.next h'.next h' s.heap.next x := by
  cases hP with
  | @mk o n fl name xs us z ho hN hne hM hz =>
    have g0 : Here e s (o :: n :: (us ++ z :: more)) rest := by simpa using h
    have e0 := g0.eat
    rw [ho] at e0
    have hnf : isFmt n = false := isFmt_of_type hN.type (by decide) (by decide)
    obtain ⟨N0, hN0⟩ : ∃ N : Node, N = { type := .Parameters_Define } := ⟨_, rfl⟩
    obtain ⟨N, hNN⟩ : ∃ N : Node, N = { type := .Parameters_Define, name := name, num := 1 } := ⟨_, rfl⟩
    obtain ⟨g, hg⟩ : ∃ g, g = changed (grown s.heap N0) s.heap.next N := ⟨_, rfl⟩
    have hgn : g.next = s.heap.next + 1 := by rw [hg]; rfl
    have hcn : g.cell s.heap.next = N := by rw [hg]; simp [changed]
    have hsame : ∀ q, 0 < q → q < s.heap.next → g.Valid q ∧ g.cell q = s.heap.cell q := fun q w1 w2 => by
      have : q ≠ s.heap.next := by omega
      exact ⟨⟨w1, by omega⟩, by rw [hg]; simp [changed, grown, this]⟩
    have g1 : Here e ⟨s.idx + 1, grown s.heap N0, s.scope⟩ (n :: (us ++ z :: more)) rest := g0.tail.at rfl
    have g2 : Here e ⟨s.idx + 1, g, s.scope⟩ (n :: (us ++ z :: more)) rest := g0.tail.at rfl
    have g3 : Here e ⟨s.idx + 1 + 1, g, s.scope⟩ (us ++ z :: more) rest := g2.tail.at rfl
    have e2 := g2.eat
    rw [hN.type] at e2
    have hl : NamesList g s.heap.next s.heap.next [name] g.next [] := by
      refine ⟨⟨by omega, ⟨hn, by omega⟩, by rw [hcn, hNN]; rfl, trivial, ?_, (fun _ => by rw [hcn, hNN]), (fun _ hh => by cases hh), (fun _ hh => by cases hh), by simp, by simp⟩, ?_, ?_,
        (fun _ hh => by cases hh)⟩
      · show (g.cell s.heap.next).back = 0
        rw [hcn, hNN]
      · intro q hq
        rw [List.mem_singleton] at hq
        omega
      · simp [hcn, hNN]
    obtain ⟨h', l', m, m1, m2, m3, m4, m5⟩ := moreNames_run (a := s.heap.next) (more := more) hn hM hz (s := ⟨s.idx + 1 + 1, g, s.scope⟩) (r := s.heap.next) (by show s.heap.next ≤ g.next; omega) hl g3
    have m4 : g.next ≤ h'.next := m4
    have hlen := g3.length_le
    have hloop := m2.loop (by have h1 := hlen; simp at h1; omega)
    have g4 : Here e ⟨s.idx + 1 + 1 + us.length, h', s.scope⟩ (z :: more) rest := g3.advN.at rfl
    have e4 := g4.eat
    rw [hz] at e4
    have hall : ∀ y ∈ [name] ++ xs, y ≠ [] := by
      intro y hy
      rcases List.mem_cons.1 hy with rfl | hy
      · exact hne
      · exact hM.ne y hy
    refine ⟨h', ?_, ?_, by omega, names_stands m5 hall⟩
    · have : s.idx + (o :: n :: us ++ [z]).length = s.idx + 1 + 1 + us.length + 1 := by simp; omega
      rw [this]
      rw [defineParams_eq]
      refine bind_run e0 ?_
      refine bind_run (make_run (s := ⟨s.idx + 1, s.heap, s.scope⟩) hn _) ?_
      rw [← hN0]
      refine bind_run (g1.leftAnd hnf _) ?_
      simp only [hN.type, ne_eq, reduceCtorEq, not_false_eq_true, decide_true, if_true]
      refine bind_run (g1.cur hnf) ?_
      refine bind_run hN.bytesP ?_
      refine bind_run (upd_run (s := ⟨s.idx + 1, grown s.heap N0, s.scope⟩) ⟨hn, Nat.lt_succ_self _⟩) ?_
      rw [show ({ (grown s.heap N0).cell s.heap.next with name := name, num := ((grown s.heap N0).cell s.heap.next).num + 1 } : Node) = N by simp [grown, hN0, hNN]]
      rw [← hg]
      refine bind_run e2 ?_
      refine bind_run hloop ?_
      exact bind_run e4 rfl
    · intro q q1 q2
      obtain ⟨k1, k2⟩ := m3 q q1 q2
      exact ⟨k1, k2.trans (hsame q q1 q2).2⟩

/-- What is done behind the name and the parameters of a macro. -/
def defineRest (r : Nat) : P Nat := do
  if !(← check .Preprocess_Content) then fail else
  let t ← cur
  let b ← bytes (.of t)
  let text ← if t.len = 0 then pure b!"\n" else stripped b
  let u ← code fun c h => untypedStr c h text
  change fun h => h.upd r fun n => { n with body := u }
  eat .Preprocess_Content
  return r

theorem define_eq : define = inScope b!"parser_parse_define" (do
    if ← check .Preprocess_Hash then eat .Preprocess_Hash
    eat .Preprocess_Define
    let r ← make { type := .Preprocess_Define }
    if !(← check .Identifier) then fail else
    let name ← bytes (.of (← cur))
    change fun h => h.upd r fun n => { n with name := name }
    eat .Identifier
    match ← macroOf name with
    | none => ub
    | some m =>
      if Functional m then
        let ps ← defineParams
        change fun h => h.upd r fun n => { n with params := ps }
        defineRest r
      else defineRest r) := rfl

theorem defineRest_run {r : Nat} (hT : MacroText e.mem t x) (hr : s.heap.Valid r) (h : Here e s (t :: ts) rest) :
    defineRest r e s = .ok (r, ⟨s.idx + 1, changed (grown s.heap (textNode x)) r { s.heap.cell r with body := s.heap.next }, s.scope⟩) ∧ x ≠ [] := by
  obtain ⟨fl, raw, h1, hx, h2⟩ := MacroText.run (e := e) (s := s) rfl hT
  have hf : isFmt t = false := isFmt_of_type h1.type (by decide) (by decide)
  have hn : 0 < s.heap.next := Nat.lt_of_lt_of_le hr.1 (Nat.le_of_lt hr.2)
  refine ⟨?_, hx⟩
  refine bind_run (h.check hf _) ?_
  simp only [h1.type, decide_true, Bool.not_true, Bool.false_eq_true, if_false]
  refine bind_run (h.cur hf) ?_
  refine bind_run h1.bytesP ?_
  refine ite_bind ?_
  refine bind_run h2 ?_
  refine bind_run (a := s.heap.next) (s' := ⟨s.idx, grown s.heap (textNode x), s.scope⟩) ?_ ?_
  · show (untypedStr e.cfg s.heap x).bind _ = _
    unfold untypedStr guardName
    rw [if_neg hx, finish_eq hn]
    rfl
  refine bind_run (upd_run (s := ⟨s.idx, grown s.heap (textNode x), s.scope⟩) ⟨hr.1, Nat.lt_succ_of_lt hr.2⟩) ?_
  have hne : r ≠ s.heap.next := Nat.ne_of_lt hr.2
  have hc : (grown s.heap (textNode x)).cell r = s.heap.cell r := by simp [grown, hne]
  rw [show ({ (St.heap ⟨s.idx, grown s.heap (textNode x), s.scope⟩).cell r with body := s.heap.next } : Node) = { s.heap.cell r with body := s.heap.next } by
    rw [show (St.heap ⟨s.idx, grown s.heap (textNode x), s.scope⟩).cell r = s.heap.cell r from hc]]
  obtain ⟨g, hg⟩ : ∃ g, g = changed (grown s.heap (textNode x)) r { s.heap.cell r with body := s.heap.next } := ⟨_, rfl⟩
  have g1 : Here e ⟨s.idx, g, s.scope⟩ (t :: ts) rest := h.at rfl
  have e1 := g1.eat
  rw [h1.type] at e1
  rw [← hg]
  exact bind_run e1 rfl

theorem define_gives {fl : Nat} {n : Tok} {m : Lex.MacroInfo} (ht : t.type = .Preprocess_Define) (hN : TokIs e.mem n .Identifier fl name) (hne : name ≠ [])
    (hm : Lex.lookupMacro e.ms name = some m) (hF : m.flags % 2 = 0) (hT : MacroText e.mem u x) (hn : 0 < s.heap.next) (h : Here e s (t :: n :: u :: ts) rest) :
    GivesIn define e s 3 (b!"#define " ++ name ++ b!" " ++ x) := by
  obtain ⟨sc, hsc⟩ : ∃ sc, sc = b!"parser_parse_define" :: s.scope := ⟨_, rfl⟩
  obtain ⟨N0, hN0⟩ : ∃ N : Node, N = { type := .Preprocess_Define } := ⟨_, rfl⟩
  obtain ⟨N1, hN1⟩ : ∃ N : Node, N = { type := .Preprocess_Define, name := name } := ⟨_, rfl⟩
  obtain ⟨g, hg⟩ : ∃ g, g = changed (grown s.heap N0) s.heap.next N1 := ⟨_, rfl⟩
  have hgn : g.next = s.heap.next + 1 := by rw [hg]; rfl
  have hcn : g.cell s.heap.next = N1 := by rw [hg]; simp [changed]
  have htf : isFmt t = false := isFmt_of_type ht (by decide) (by decide)
  have hnf : isFmt n = false := isFmt_of_type hN.type (by decide) (by decide)
  have g0 : Here e ⟨s.idx, s.heap, sc⟩ (t :: n :: u :: ts) rest := h.heap _ _
  have g1 : Here e ⟨s.idx + 1, grown s.heap N0, sc⟩ (n :: u :: ts) rest := g0.tail.at rfl
  have g2 : Here e ⟨s.idx + 1, g, sc⟩ (n :: u :: ts) rest := g0.tail.at rfl
  have g3 : Here e ⟨s.idx + 1 + 1, g, sc⟩ (u :: ts) rest := g2.tail.at rfl
  have e0 := g0.eat
  have e2 := g2.eat
  rw [ht] at e0
  rw [hN.type] at e2
  obtain ⟨r1, hx⟩ := defineRest_run (r := s.heap.next) (s := ⟨s.idx + 1 + 1, g, sc⟩) hT ⟨hn, by show _ < g.next; omega⟩ g3
  have hcn' : (St.mk (s.idx + 1 + 1) g sc).heap.cell s.heap.next = N1 := hcn
  rw [hcn'] at r1
  obtain ⟨h', hh'⟩ : ∃ h', h' = changed (grown g (textNode x)) s.heap.next { N1 with body := g.next } := ⟨_, rfl⟩
  have r1 : defineRest s.heap.next e ⟨s.idx + 1 + 1, g, sc⟩ = .ok (s.heap.next, ⟨s.idx + 1 + 1 + 1, h', sc⟩) := by rw [hh']; exact r1
  have hn' : h'.next = s.heap.next + 2 := by rw [hh']; show g.next + 1 = _; omega
  have hc' : h'.cell s.heap.next = { N1 with body := g.next } := by rw [hh']; simp [changed]
  have hb' : h'.cell (s.heap.next + 1) = textNode x := by
    rw [hh', ← hgn]
    have : g.next ≠ s.heap.next := by omega
    simp [changed, grown, this]
  refine ⟨s.heap.next, h', ?_, ?_, Nat.le_refl _, by omega, ?_, ?_⟩
  · rw [define_eq]
    refine inScope_run (sc := sc) ?_ hsc
    rw [← hsc]
    refine bind_run (g0.check htf _) ?_
    simp only [ht, reduceCtorEq, decide_false, Bool.false_eq_true, if_false]
    refine bind_run e0 ?_
    refine bind_run (make_run (s := ⟨s.idx + 1, s.heap, sc⟩) hn _) ?_
    rw [← hN0]
    refine bind_run (g1.check hnf _) ?_
    simp only [hN.type, decide_true, Bool.not_true, Bool.false_eq_true, if_false]
    refine bind_run (g1.cur hnf) ?_
    refine bind_run hN.bytesP ?_
    refine bind_run (upd_run (s := ⟨s.idx + 1, grown s.heap N0, sc⟩) ⟨hn, Nat.lt_succ_self _⟩) ?_
    rw [show ({ (grown s.heap N0).cell s.heap.next with name := name } : Node) = N1 by simp [grown, hN0, hN1]]
    rw [← hg]
    refine bind_run e2 ?_
    refine bind_run (a := some m) (s' := ⟨s.idx + 1 + 1, g, sc⟩) (by unfold macroOf; rw [hm]; rfl) ?_
    simp only [show Functional m = false by unfold Functional; simp [Nat.and_one_is_mod, hF], Bool.false_eq_true, if_false]
    exact r1
  · intro q q1 q2
    have w1 : q ≠ s.heap.next := by omega
    have w2 : q ≠ g.next := by omega
    exact ⟨⟨q1, by omega⟩, by rw [hh', hg]; simp [changed, grown, w1]; intro hh; omega⟩
  · unfold Single
    rw [hc', hN1]
    exact ⟨rfl, rfl⟩
  · intro E k f' k' hA h2 h3 _
    rw [hc', hN1] at h3
    have hB := hA (s.heap.next + 1) (by omega) (by omega) (by omega)
    rw [hb'] at hB
    have hbd : (E.h.cell s.heap.next).body = s.heap.next + 1 := by rw [h3]; exact hgn
    have key := C48_define (e := E) (p := s.heap.next) (n := E.h.cell s.heap.next) ⟨h2, rfl, by rw [h3]⟩ (by rw [h3]) (by rw [hbd]; exact hB.1) (by rw [hbd, hB.2]; exact hx)
    rw [hbd, hB.2, nameText_of (by rw [h3]; exact hne), h3] at key
    exact key

theorem defineFn_gives {fl : Nat} {n : Tok} {m : Lex.MacroInfo} {px : Bytes} {ps : List Tok} (ht : t.type = .Preprocess_Define) (hN : TokIs e.mem n .Identifier fl name) (hne : name ≠ [])
    (hm : Lex.lookupMacro e.ms name = some m) (hF : m.flags % 2 = 1) (hP : NamesToks e.mem px ps) (hT : MacroText e.mem u x) (hn : 0 < s.heap.next)
    (h : Here e s (t :: n :: ps ++ u :: ts) rest) : GivesIn define e s (t :: n :: ps ++ [u]).length (b!"#define " ++ name ++ b!"(" ++ px ++ b!") " ++ x) := by
  obtain ⟨sc, hsc⟩ : ∃ sc, sc = b!"parser_parse_define" :: s.scope := ⟨_, rfl⟩
  obtain ⟨N0, hN0⟩ : ∃ N : Node, N = { type := .Preprocess_Define } := ⟨_, rfl⟩
  obtain ⟨N1, hN1⟩ : ∃ N : Node, N = { type := .Preprocess_Define, name := name } := ⟨_, rfl⟩
  obtain ⟨g, hg⟩ : ∃ g, g = changed (grown s.heap N0) s.heap.next N1 := ⟨_, rfl⟩
  have hgn : g.next = s.heap.next + 1 := by rw [hg]; rfl
  have hcn : g.cell s.heap.next = N1 := by rw [hg]; simp [changed]
  have htf : isFmt t = false := isFmt_of_type ht (by decide) (by decide)
  have hnf : isFmt n = false := isFmt_of_type hN.type (by decide) (by decide)
  have g0 : Here e ⟨s.idx, s.heap, sc⟩ (t :: n :: (ps ++ u :: ts)) rest := by simpa using h.heap s.heap sc
  have g1 : Here e ⟨s.idx + 1, grown s.heap N0, sc⟩ (n :: (ps ++ u :: ts)) rest := g0.tail.at rfl
  have g2 : Here e ⟨s.idx + 1, g, sc⟩ (n :: (ps ++ u :: ts)) rest := g0.tail.at rfl
  have g3 : Here e ⟨s.idx + 1 + 1, g, sc⟩ (ps ++ u :: ts) rest := g2.tail.at rfl
  have e0 := g0.eat
  have e2 := g2.eat
  rw [ht] at e0
  rw [hN.type] at e2
  obtain ⟨h1, d1, d2, d3, d4⟩ := defineParams_run (s := ⟨s.idx + 1 + 1, g, sc⟩) hP (by show 0 < g.next; omega) g3
  have d2 : Agree 1 g.next g h1 := d2
  have d3 : g.next < h1.next := d3
  have d4 : Stands .defParams g.next h1.next h1 g.next px := d4
  have c1 : h1.cell s.heap.next = N1 := (d2 _ (by omega) (by omega)).2.trans hcn
  obtain ⟨N2, hN2⟩ : ∃ N : Node, N = { type := .Preprocess_Define, name := name, params := g.next } := ⟨_, rfl⟩
  obtain ⟨h2, hh2⟩ : ∃ h2, h2 = changed h1 s.heap.next N2 := ⟨_, rfl⟩
  have n2 : h2.next = h1.next := by rw [hh2]; rfl
  have c2 : h2.cell s.heap.next = N2 := by rw [hh2]; simp [changed]
  have g4 : Here e ⟨s.idx + 1 + 1 + ps.length, h2, sc⟩ (u :: ts) rest := g3.advN.at rfl
  obtain ⟨r1, hx⟩ := defineRest_run (r := s.heap.next) (s := ⟨s.idx + 1 + 1 + ps.length, h2, sc⟩) hT ⟨hn, by show _ < h2.next; omega⟩ g4
  have hcn' : (St.mk (s.idx + 1 + 1 + ps.length) h2 sc).heap.cell s.heap.next = N2 := c2
  rw [hcn'] at r1
  obtain ⟨h', hh'⟩ : ∃ h', h' = changed (grown h2 (textNode x)) s.heap.next { N2 with body := h2.next } := ⟨_, rfl⟩
  have r1 : defineRest s.heap.next e ⟨s.idx + 1 + 1 + ps.length, h2, sc⟩ = .ok (s.heap.next, ⟨s.idx + 1 + 1 + ps.length + 1, h', sc⟩) := by rw [hh']; exact r1
  have hn' : h'.next = h2.next + 1 := by rw [hh']; rfl
  have hc' : h'.cell s.heap.next = { N2 with body := h2.next } := by rw [hh']; simp [changed]
  have hb' : h'.cell h2.next = textNode x := by
    rw [hh']
    have : h2.next ≠ s.heap.next := by omega
    simp [changed, grown, this]
  have hold : ∀ q, q ≠ s.heap.next → q < h2.next → h'.cell q = h1.cell q := fun q w1 w2 => by
    have w3 : q ≠ h2.next := by omega
    rw [hh']
    simp only [changed, grown, if_neg w1, if_neg w3]
    rw [hh2]
    simp [changed, w1]
  refine ⟨s.heap.next, h', ?_, ?_, Nat.le_refl _, by omega, ?_, ?_⟩
  · have : s.idx + (t :: n :: ps ++ [u]).length = s.idx + 1 + 1 + ps.length + 1 := by simp; omega
    rw [this, define_eq]
    refine inScope_run (sc := sc) ?_ hsc
    rw [← hsc]
    refine bind_run (g0.check htf _) ?_
    simp only [ht, reduceCtorEq, decide_false, Bool.false_eq_true, if_false]
    refine bind_run e0 ?_
    refine bind_run (make_run (s := ⟨s.idx + 1, s.heap, sc⟩) hn _) ?_
    rw [← hN0]
    refine bind_run (g1.check hnf _) ?_
    simp only [hN.type, decide_true, Bool.not_true, Bool.false_eq_true, if_false]
    refine bind_run (g1.cur hnf) ?_
    refine bind_run hN.bytesP ?_
    refine bind_run (upd_run (s := ⟨s.idx + 1, grown s.heap N0, sc⟩) ⟨hn, Nat.lt_succ_self _⟩) ?_
    rw [show ({ (grown s.heap N0).cell s.heap.next with name := name } : Node) = N1 by simp [grown, hN0, hN1]]
    rw [← hg]
    refine bind_run e2 ?_
    refine bind_run (a := some m) (s' := ⟨s.idx + 1 + 1, g, sc⟩) (by unfold macroOf; rw [hm]; rfl) ?_
    simp only [show Functional m = true by unfold Functional; simp [Nat.and_one_is_mod, hF], if_true]
    refine bind_run d1 ?_
    refine bind_run (upd_run (s := ⟨s.idx + 1 + 1 + ps.length, h1, sc⟩) ⟨hn, by show _ < h1.next; omega⟩) ?_
    rw [show ({ (St.heap ⟨s.idx + 1 + 1 + ps.length, h1, sc⟩).cell s.heap.next with params := g.next } : Node) = N2 by
      rw [show (St.heap ⟨s.idx + 1 + 1 + ps.length, h1, sc⟩).cell s.heap.next = N1 from c1, hN1, hN2]]
    rw [← hh2]
    exact r1
  · intro q q1 q2
    refine ⟨⟨q1, by omega⟩, (hold q (by omega) (by omega)).trans ((d2 q q1 (by omega)).2.trans ?_)⟩
    have w1 : q ≠ s.heap.next := by omega
    rw [hg]
    simp [changed, grown, w1]
  · unfold Single
    rw [hc', hN2]
    exact ⟨rfl, rfl⟩
  · intro E k f' k' hA h2' h3 _ hf
    rw [hc', hN2] at h3
    have hB := hA h2.next (by omega) (by omega) (by omega)
    rw [hb'] at hB
    have hbd : (E.h.cell s.heap.next).body = h2.next := by rw [h3]
    have hpd : (E.h.cell s.heap.next).params = g.next := by rw [h3]
    have hag : Agree g.next h1.next h1 E.h := fun q q1 q2 => by
      obtain ⟨w1, w2⟩ := hA q (by omega) (by omega) (by omega)
      exact ⟨w1, w2.trans (hold q (by omega) (by omega))⟩
    have hfp : Fits px := by
      simp only [List.append_assoc] at hf
      exact (Fits.append (Fits.append (Fits.append (Fits.append hf).2).2).2).1
    have key := C48_define_params (e := E) (p := s.heap.next) (n := E.h.cell s.heap.next) (pt := px) ⟨h2', rfl, by rw [h3]⟩ (by rw [hpd]; omega) (by rw [hpd]; exact d4.says E hag hfp)
      (by rw [hbd]; exact hB.1) (by rw [hbd, hB.2]; exact hx)
    rw [hbd, hB.2, nameText_of (by rw [h3]; exact hne), h3] at key
    exact key hf

/-! ## Other directives, and assertions -/

theorem cText_self : ∀ {x : Bytes}, (0 : UInt8) ∉ x → cText x = x
  | [], _ => rfl
  | b :: l, h => by
    have hb : b ≠ 0 := fun hh => h (by simp [hh])
    have := cText_self (x := l) fun hh => h (List.mem_cons_of_mem _ hh)
    unfold cText at this ⊢
    rw [List.takeWhile_cons]
    simp only [ne_eq, hb, not_false_eq_true, decide_true, if_true]
    rw [this]

theorem static_gives {o z : Tok} {vs : List Tok} (ht : t.type = .StaticAssert) (ho : o.type = .Paren_Open) (hv : Inside .Paren_Open .Paren_Close vs) (hz : z.type = .Paren_Close)
    (hu : u.type = .Statement_End) (hx : Spans e.mem (t :: o :: vs ++ [z, u]) x) (hx0 : (0 : UInt8) ∉ x) (hxl : x.length < 131070) (hn : 0 < s.heap.next)
    (h : Here e s (t :: o :: vs ++ z :: u :: more) rest) : Gives staticAssert e s (t :: o :: vs ++ [z, u]).length (x ++ b!"\n") := by
  refine Gives.scope ?_
  obtain ⟨sc, hsc⟩ : ∃ sc, sc = b!"parse_static_assert" :: s.scope := ⟨_, rfl⟩
  rw [← hsc]
  obtain ⟨N, hN⟩ : ∃ N : Node, N = { type := .Untyped } := ⟨_, rfl⟩
  obtain ⟨g, hg⟩ : ∃ g, g = grown s.heap N := ⟨_, rfl⟩
  have g0 : Here e ⟨s.idx, g, sc⟩ (t :: o :: (vs ++ z :: u :: more)) rest := by simpa using h.heap g sc
  have g1 : Here e ⟨s.idx + 1, g, sc⟩ (o :: (vs ++ z :: u :: more)) rest := g0.tail.at rfl
  have g2 : Here e ⟨s.idx + 1 + 1, g, sc⟩ (vs ++ z :: u :: more) rest := g1.tail.at rfl
  have g3 : Here e ⟨s.idx + 1 + 1 + vs.length, g, sc⟩ (z :: u :: more) rest := g2.advN.at rfl
  have g4 : Here e ⟨s.idx + 1 + 1 + vs.length + 1, g, sc⟩ (u :: more) rest := g3.tail.at rfl
  have e0 := g0.eat
  have e1 := g1.eat
  have e3 := g3.eat
  have e4 := g4.eat
  rw [ht] at e0
  rw [ho] at e1
  rw [hz] at e3
  rw [hu] at e4
  have htf : isFmt t = false := isFmt_of_type ht (by decide) (by decide)
  have hzc : Code z := by unfold Code; rw [hz]; decide
  have hlen : s.idx + (t :: o :: vs ++ [z, u]).length = s.idx + 1 + 1 + vs.length + 1 + 1 := by simp; omega
  have hg0 : Here e ⟨s.idx, g, sc⟩ (t :: (o :: vs ++ [z, u]) ++ more) rest := by simpa using h.heap g sc
  have hup := upToPrev_run (s := ⟨s.idx, g, sc⟩) (f := t) (ts := o :: vs ++ [z, u]) (more := more) (x := x) hg0 hx (s' := ⟨s.idx + 1 + 1 + vs.length + 1 + 1, g, sc⟩) (by simp; omega)
  have hsl : Lex.slice e.mem t.start x.length = x := by
    obtain ⟨f, l, h1, -, -, h2⟩ := hx.text
    cases h1
    exact h2
  have hcx : cText x = x := cText_self hx0
  obtain ⟨M, hM⟩ : ∃ M : Node, M = { type := .Untyped, content := x ++ b!"\n", name := x ++ b!"\n" } := ⟨_, rfl⟩
  refine ⟨s.heap.next, changed g s.heap.next M, ?_, ?_, Nat.le_refl _, by rw [hg]; rfl, ?_, ?_⟩
  · show _ = Res.ok (s.heap.next, (⟨s.idx + _, _, sc⟩ : St))
    rw [hlen]
    refine bind_run (make_run (s := ⟨s.idx, s.heap, sc⟩) hn _) ?_
    rw [← hN]
    rw [show grown (St.heap ⟨s.idx, s.heap, sc⟩) N = g from hg.symm]
    refine bind_run (g0.cur htf) ?_
    refine bind_run e0 ?_
    refine bind_run e1 ?_
    refine bind_run (skipGroup_run hv (by decide) hz hzc g2) ?_
    refine bind_run e3 ?_
    refine bind_run e4 ?_
    refine bind_run hup ?_
    refine bind_run (a := x) (s' := ⟨s.idx + 1 + 1 + vs.length + 1 + 1, g, sc⟩) ?_ ?_
    · unfold Parse.bytes
      rw [bytes_slice rfl hsl]
      rfl
    refine bind_run (a := x ++ b!"\n") (s' := ⟨s.idx + 1 + 1 + vs.length + 1 + 1, g, sc⟩) ?_ ?_
    · show (fmtText (cText x ++ [10])).bind _ = _
      rw [hcx]
      unfold fmtText
      rw [if_pos (by simp; omega)]
      rfl
    refine bind_run (upd_run (s := ⟨s.idx + 1 + 1 + vs.length + 1 + 1, g, sc⟩) ⟨hn, by rw [hg]; exact Nat.lt_succ_self _⟩) ?_
    rw [show ({ g.cell s.heap.next with content := x ++ b!"\n", name := x ++ b!"\n" } : Node) = M by simp [hg, grown, hN, hM]]
    rfl
  · intro q q1 q2
    have q2 : q < s.heap.next := q2
    have : q ≠ s.heap.next := by omega
    exact ⟨⟨q1, by rw [hg]; show q < s.heap.next + 1; omega⟩, by rw [hg]; simp [changed, grown, this]⟩
  · unfold Single
    simp only [changed, if_true, hM]
    exact ⟨trivial, rfl⟩
  · intro E k f' k' _ h2 h3 _ _
    simp only [changed, if_true, hM] at h3
    have := C48_text (e := E) (p := s.heap.next) (n := E.h.cell s.heap.next) (.inl ⟨h2, rfl, by rw [h3]⟩)
    rwa [h3] at this

theorem Here.peek (h : Here e s ts rest) (hb : Beyond ts) : ∃ v, Parse.peek e s = .ok (v, s) ∧ v.type ≠ .Statement_End := by
  have key : ∀ {ts : List Tok} (i : Nat), Beyond ts → ∃ v j, skipFmt (·.type = .NewLine) (ts ++ rest) i = .ok (v, j) ∧ v.type ≠ .Statement_End := by
    intro ts i hb
    induction hb generalizing i with
    | @here t l h1 h2 =>
      refine ⟨t, i, ?_, h2⟩
      rw [List.cons_append]
      unfold skipFmt
      simp [h1]
    | @skip t l h1 _ ih =>
      obtain ⟨v, j, k1, k2⟩ := ih (i + 1)
      refine ⟨v, j, ?_, k2⟩
      rw [List.cons_append]
      unfold skipFmt
      simp only [h1, decide_true, if_true]
      exact k1
  obtain ⟨v, j, k1, k2⟩ := key s.idx hb
  refine ⟨v, ?_, k2⟩
  unfold Parse.peek
  rw [h.cells, k1]
  rfl

theorem other_gives {fl : Nat} {p : Bytes} (ht : TokIs e.mem t .Preprocess_Unsupported fl x) (hx : x ≠ []) (hm : Lex.lookupMacro e.ms x = none)
    (hsc : s.scope.head? = some p) (hp : p = b!"parse_global_nspace" ∨ p = b!"parse_class_struct_body") (hb : ts = [] ∨ Beyond ts) (hn : 0 < s.heap.next)
    (h : Here e s (t :: ts) rest) : Gives (simplePreprocess .Preprocess_Unsupported) e s 1 x := by
  refine Gives.scope ?_
  obtain ⟨sl, hsl⟩ : ∃ sl, s.scope = p :: sl := by
    cases hs : s.scope with
    | nil => rw [hs] at hsc; cases hsc
    | cons a l => rw [hs] at hsc; cases hsc; exact ⟨l, rfl⟩
  obtain ⟨sc, hsc'⟩ : ∃ sc, sc = b!"parse_simple_preprocess" :: s.scope := ⟨_, rfl⟩
  rw [← hsc']
  have g0 : Here e ⟨s.idx, s.heap, sc⟩ (t :: ts) rest := h.heap s.heap sc
  have g1 : Here e ⟨s.idx + 1, s.heap, sc⟩ ts rest := g0.tail.at rfl
  have e0 := g0.eat
  rw [ht.type] at e0
  have htf : isFmt t = false := isFmt_of_type ht.type (by decide) (by decide)
  obtain ⟨c1, r0, r1, r2, c2, c3, c4, c5⟩ : Str.contains e.lt p b!"parser_parse_enum" = .ok false ∧ ∃ r0 r1 r2, Str.contains e.lt p b!"parser_parse_typedef" = .ok r0 ∧
      Str.contains e.lt p b!"parse_global_nspace" = .ok r1 ∧ Str.contains e.lt p b!"parse_class_struct_body" = .ok r2 ∧ (r1 = true ∨ r2 = true) := by
    rcases hp with rfl | rfl
    · cases e.lt <;> exact ⟨by decide +kernel, false, true, false, by decide +kernel, by decide +kernel, by decide +kernel, .inl rfl⟩
    · cases e.lt <;> exact ⟨by decide +kernel, false, false, true, by decide +kernel, by decide +kernel, by decide +kernel, .inr rfl⟩
  have hend : macroEnd none (.of t) e ⟨s.idx + 1, s.heap, sc⟩ = .ok (.of t, ⟨s.idx + 1, s.heap, sc⟩) := by
    have hc : ∀ (b : Bytes) (r : Bool), Str.contains e.lt p b = .ok r → contains p b e ⟨s.idx + 1, s.heap, sc⟩ = .ok (r, ⟨s.idx + 1, s.heap, sc⟩) := by
      intro b r hr
      unfold contains
      refine bind_run (envP _ _) ?_
      show (Str.contains e.lt p b).bind _ = _
      rw [hr]
      rfl
    have hlast : (do
        if ← left then
          if (← peek).type = .Statement_End then
            let _ ← cur
            eat .Statement_End
            return { Txt.of t with len := (Txt.of t).len + (← prev).len }
          else return (Txt.of t)
        else return (Txt.of t) : P Txt) e ⟨s.idx + 1, s.heap, sc⟩ = .ok (.of t, ⟨s.idx + 1, s.heap, sc⟩) := by
      rcases hb with rfl | hb
      · refine bind_run g1.done ?_
        simp only [Bool.false_eq_true, if_false]
        rfl
      · obtain ⟨v, v1, v2⟩ := g1.peek hb
        have hl : left e ⟨s.idx + 1, s.heap, sc⟩ = .ok (true, ⟨s.idx + 1, s.heap, sc⟩) := by
          cases hb with
          | here => exact g1.left
          | skip => exact g1.left
        refine bind_run hl ?_
        simp only [if_true]
        refine bind_run v1 ?_
        simp only [v2, if_false]
        rfl
    unfold macroEnd
    refine bind_run (a := p) (s' := ⟨s.idx + 1, s.heap, sc⟩) ?_ ?_
    · unfold callerProc
      rw [hsc', hsl]
      rfl
    refine bind_run (hc _ _ c1) ?_
    simp only [Bool.false_eq_true, if_false]
    refine bind_run (hc _ _ c2) ?_
    simp only [Option.any_none, Bool.false_eq_true, false_and, if_false]
    refine bind_run (hc _ _ c3) ?_
    refine bind_run (hc _ _ c4) ?_
    simp only [c5, if_true]
    exact hlast
  have hlen : (Txt.of t) = ⟨t.start, x.length⟩ := by unfold Txt.of; rw [ht.len]
  have hun := untyped_run (e := e) (s := ⟨s.idx + 1, s.heap, sc⟩) (a := t.start) (x := x) ht.text hx hn
  refine ⟨s.heap.next, grown s.heap (textNode x), ?_, agree_kept (Nat.succ_pos _) (Nat.le_refl _) (kept_grown _ _), Nat.le_refl _, rfl, ?_, ?_⟩
  · show _ = Res.ok (s.heap.next, (⟨s.idx + 1, _, sc⟩ : St))
    refine bind_run (g0.cur htf) ?_
    refine bind_run e0 ?_
    refine bind_run ht.bytesP ?_
    refine bind_run (a := none) (s' := ⟨s.idx + 1, s.heap, sc⟩) (by unfold macroOf; rw [hm]; rfl) ?_
    simp only [ne_eq, not_true_eq_false, false_and, if_false, Option.any_none, Bool.false_eq_true]
    refine bind_run (pureP _ _ _) ?_
    refine bind_run (a := .of t) (s' := ⟨s.idx + 1, s.heap, sc⟩) (by unfold macroTail; exact hend) ?_
    rw [hlen]
    exact hun
  · unfold Single
    simp [grown, textNode, isBodyType]
  · intro E k f' k' _ h2 h3 _ _
    have hce : (grown s.heap (textNode x)).cell s.heap.next = textNode x := by simp [grown]
    have h3 : E.h.cell s.heap.next = { (grown s.heap (textNode x)).cell s.heap.next with parent := k, front := f', back := k' } := h3
    rw [hce] at h3
    have := C48_text (e := E) (p := s.heap.next) (n := E.h.cell s.heap.next) (.inl ⟨h2, rfl, by rw [h3]; rfl⟩)
    rwa [h3] at this

end Verif.Parse
