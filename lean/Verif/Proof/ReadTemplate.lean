import Verif.Proof.ReadUnion
import Verif.Proof.ReadAlias
import Verif.Proof.ReadScan
/-!
# Running the parser on templates
-/
namespace Verif.Parse
open Verif.Lex (Tok)
open Verif.Ast P
open Verif.Ser hiding Env boundsText isNext

variable {e : Env} {s : St} {t u : Tok} {ts us more rest : List Tok} {x y : Bytes} {a b : Nat}

theorem nspaceDecl_run {f n : Tok} {tl : List Tok} {ex : Bool} {sq : Nat} (hS : Scan e) (hf : f.type ∈ typeStarts) (hn : n.type ≠ .Paren_Open) (ho : operatorComes e s = .ok (false, s))
    (h : Here e s (f :: n :: tl) rest) : nspaceDecl ex 0 sq e s = opFnOrVar ex 0 sq e s := by
  unfold nspaceDecl
  refine bind_eq (ctorDtor_none hS ?_ hn h) ?_
  · intro hh
    revert hf hh
    cases f.type <;> decide
  · simp only [ne_eq, not_true_eq_false, if_false]
    refine bind_eq ho ?_
    simp only [Bool.false_eq_true, if_false]

theorem templateSpecs_ok {l : List Specifier} (h : ∀ x ∈ l, x ∈ placeSpecs .template) : ∀ x ∈ l, orConst templateSpecs x = some (some true) := by
  intro x hx
  have := h x hx
  revert this
  cases x <;> decide

/-- Where `parser_parse_template` was called: not from `parse_global_nspace`, or every declaration may be searched for a constructor's name. -/
def CalledFrom (e : Env) (sc : List Bytes) : Prop := sc.head? ≠ some b!"parse_global_nspace" ∨ Scan e

/-- A templated variable or function. -/
theorem templateOther_gives {next : List Tok} {sc : List Bytes} (hD : DeclToks e.ms e.mem .template next y us) (hC : CalledFrom e sc) (hB : Behind (more ++ rest))
    (hn : 0 < s.heap.next) (hs : s.scope = b!"parser_parse_template" :: sc) (h : Here e s (us ++ (next ++ more)) rest) :
    ∃ f tl, us = f :: tl ∧ isFmt f = false ∧ f.type ∉ [TokType.Decl_Class, .Decl_Struct, .Decl_Union, .Decl_Using] ∧ Gives templateOther e s us.length y := by
  obtain ⟨specs, ss, f, n, tl, rfl, h1, h2, h3, hl, h4, h5, h6, h7, h8, h9, h11, h10⟩ := hD.split hB.1 hB.2
  have hme : f.type ≠ .Module_Export := starts_ne h4 (by decide)
  obtain ⟨g, gl, hg1, hg2, hg3, hg4⟩ := h1.first (f := f) (tl := n :: tl) h5 h9 hme
  have hgt : g.type ∉ [TokType.Decl_Class, .Decl_Struct, .Decl_Union, .Decl_Using] := by
    cases h1 with
    | nil =>
      cases hg1
      intro hh
      revert h4 hh
      cases f.type <;> decide
    | @cons x l t ts hx _ =>
      cases hg1
      rw [hx.type]
      cases x <;> decide
  refine ⟨g, gl, hg1, hg2, hgt, ?_⟩
  have h' : Here e s (ss ++ f :: (n :: (tl ++ (next ++ more)))) rest := by simpa using h
  have hg := h
  rw [hg1, List.cons_append] at hg
  have r1 := specifiersLoop_run h1 (templateSpecs_ok h2) h' (h8 _ rfl) (found := []) (by rw [List.length_nil]; omega)
  rw [List.nil_append] at r1
  obtain ⟨sq, g', r2, k2, n2, q2⟩ := specsOf_run (e := e) (s := s.adv ss.length) (l := specs) hn hl
  have n2 : s.heap.next ≤ g'.next := n2
  have hh : Here e ⟨s.idx + ss.length, g', s.scope⟩ (f :: n :: (tl ++ (next ++ more))) rest := h'.advN.at rfl
  have hh' : Here e ⟨s.idx + ss.length, g', s.scope⟩ (f :: n :: tl ++ (next ++ more)) rest := by simpa using hh
  obtain ⟨p, h2', r3, r4, r5⟩ := h10 ⟨s.idx + ss.length, g', s.scope⟩ s.heap.next sq hn n2 q2 hh'
  refine ⟨p, h2', ?_, (agree_kept (Nat.succ_pos _) (Nat.le_refl _) k2).trans r4, r5⟩
  unfold templateOther
  refine bind_run (hg.attributes hg2 hg3) ?_
  refine bind_run r1 ?_
  refine bind_run r2 ?_
  have hend : opFnOrVar (specs.contains .Consteval) 0 sq e ⟨s.idx + ss.length, g', s.scope⟩ = .ok (p, ⟨s.idx + (ss ++ f :: n :: tl).length, h2', s.scope⟩) := by
    rw [r3]
    simp [Nat.add_assoc]
  have hcall : ∃ bb, calledFrom b!"parse_global_nspace" e ⟨s.idx + ss.length, g', s.scope⟩ = .ok (bb, ⟨s.idx + ss.length, g', s.scope⟩) ∧ (bb = true → Scan e) := by
    unfold calledFrom
    refine ⟨decide (sc.head? = some b!"parse_global_nspace"), ?_, fun hb => ?_⟩
    · refine bind_run rfl ?_
      simp only [hs]
      cases sc with
      | nil => rfl
      | cons c l =>
        simp only [List.head?_cons, Option.some.injEq]
        rfl
    · rcases hC with hC | hC
      · exact absurd (of_decide_eq_true hb) hC
      · exact hC
  obtain ⟨bb, c1, c2⟩ := hcall
  refine bind_run c1 ?_
  cases bb with
  | true =>
    simp only [if_true]
    show nspaceDecl _ 0 sq e ⟨s.idx + ss.length, g', s.scope⟩ = _
    rw [nspaceDecl_run (c2 rfl) h4 h7 (h11 _ hh') hh]
    exact hend
  | false =>
    simp only [Bool.false_eq_true, if_false]
    exact hend

/-- What is templated is told by its first token. -/
theorem templateBody_at {r : Rec} {f : P Nat} {m : Nat} (h : Here e s (t :: ts) rest) (hf : isFmt t = false)
    (ht : (t.type = .Decl_Class ∧ f = parseClass r false) ∨ (t.type = .Decl_Struct ∧ f = parseStruct r false) ∨ (t.type = .Decl_Union ∧ f = parseUnion r false) ∨
      (t.type = .Decl_Using ∧ f = parseUsing) ∨ (t.type ∉ [TokType.Decl_Class, .Decl_Struct, .Decl_Union, .Decl_Using] ∧ f = templateOther))
    (hg : Gives f e s m y) : Gives (templateBody r) e s m y := by
  have : templateBody r e s = f e s := by
    unfold templateBody
    refine bind_eq h.left ?_
    simp only [Bool.not_true, Bool.false_eq_true, if_false]
    refine bind_eq (h.check hf _) ?_
    rcases ht with ⟨ht, rfl⟩ | ⟨ht, rfl⟩ | ⟨ht, rfl⟩ | ⟨ht, rfl⟩ | ⟨ht, rfl⟩
    · simp only [ht, decide_true, if_true]
    · simp only [ht, reduceCtorEq, decide_false, Bool.false_eq_true, if_false]
      refine bind_eq (h.check hf _) ?_
      simp only [ht, decide_true, if_true]
    · simp only [ht, reduceCtorEq, decide_false, Bool.false_eq_true, if_false]
      refine bind_eq (h.check hf _) ?_
      simp only [ht, reduceCtorEq, decide_false, Bool.false_eq_true, if_false]
      refine bind_eq (h.check hf _) ?_
      simp only [ht, decide_true, if_true]
    · simp only [ht, reduceCtorEq, decide_false, Bool.false_eq_true, if_false]
      refine bind_eq (h.check hf _) ?_
      simp only [ht, reduceCtorEq, decide_false, Bool.false_eq_true, if_false]
      refine bind_eq (h.check hf _) ?_
      simp only [ht, reduceCtorEq, decide_false, Bool.false_eq_true, if_false]
      refine bind_eq (h.check hf _) ?_
      simp only [ht, decide_true, if_true]
    · simp only [List.mem_cons, List.not_mem_nil, or_false, not_or] at ht
      simp only [ht.1, decide_false, Bool.false_eq_true, if_false]
      refine bind_eq (h.check hf _) ?_
      simp only [ht.2.1, decide_false, Bool.false_eq_true, if_false]
      refine bind_eq (h.check hf _) ?_
      simp only [ht.2.2.1, decide_false, Bool.false_eq_true, if_false]
      refine bind_eq (h.check hf _) ?_
      simp only [ht.2.2.2, decide_false, Bool.false_eq_true, if_false]
  unfold Gives
  rw [this]
  exact hg

/-- A template: its parameters, and what is templated. -/
theorem template_gives {r : Rec} {hx : Bytes} {hs : List Tok} (hT : TemplateHead e.mem hx hs) (hn : 0 < s.heap.next) (h : Here e s (hs ++ (us ++ more)) rest)
    (hb : ∀ g : Heap, Agree 1 s.heap.next s.heap g → s.heap.next ≤ g.next → Here e ⟨s.idx + hs.length, g, b!"parser_parse_template" :: s.scope⟩ (us ++ more) rest →
      Gives (templateBody r) e ⟨s.idx + hs.length, g, b!"parser_parse_template" :: s.scope⟩ us.length y) :
    Gives (templateWith r) e s (hs ++ us).length (hx ++ y) := by
  cases hT with
  | @mk t px ps ht hP =>
    refine Gives.scope ?_
    obtain ⟨sc, hsc⟩ : ∃ sc, sc = b!"parser_parse_template" :: s.scope := ⟨_, rfl⟩
    rw [← hsc] at hb ⊢
    have hft : isFmt t = false := isFmt_of_type ht (by decide) (by decide)
    have g0 : Here e ⟨s.idx, s.heap, sc⟩ (t :: (ps ++ (us ++ more))) rest := h.heap s.heap sc
    have heat := g0.eat
    rw [ht] at heat
    have g1 := g0.tail
    obtain ⟨p, h1, r1, r2, r3, r4⟩ := templateParams_run hP (s := ⟨s.idx + 1, s.heap, sc⟩) hn g1
    have r2 : Agree 1 s.heap.next s.heap h1 := r2
    have r3 : s.heap.next ≤ h1.next := r3
    have r4 : OptStands .params s.heap.next h1.next h1 p px := r4
    have hlen : s.idx + (t :: ps).length = s.idx + 1 + ps.length := by simp; omega
    have g2 : Here e ⟨s.idx + (t :: ps).length, h1, sc⟩ (us ++ more) rest := (g1.advN.heap h1 sc).at (by rw [hlen]; rfl)
    obtain ⟨d, h2, w1, w2, w3, w4, w5, w6⟩ := hb h1 r2 r3 g2
    have w2 : Agree 1 h1.next h1 h2 := w2
    have w3 : h1.next ≤ d := w3
    have w6 : Shown h1.next d h2 y := w6
    obtain ⟨N, hN⟩ : ∃ N : Node, N = { type := .Template, params := p, body := d } := ⟨_, rfl⟩
    have hcell : (grown h2 N).cell h2.next = N := by simp [grown]
    refine ⟨h2.next, grown h2 N, ?_, ?_, by show s.heap.next ≤ h2.next; omega, rfl, ?_, ?_⟩
    · refine bind_run (g0.exportFlag hft (by rw [ht]; decide)) ?_
      refine bind_run heat ?_
      refine bind_run r1 ?_
      rw [hlen] at w1
      refine bind_run w1 ?_
      have := make_run (e := e) (s := ⟨s.idx + 1 + ps.length + us.length, h2, sc⟩) (by show 0 < h2.next; omega) N
      rw [hN] at this ⊢
      rw [this]
      simp [Nat.add_assoc, Nat.add_comm 1]
    · exact r2.trans ((w2.trans (agree_kept (Nat.succ_pos _) (by omega) (kept_grown _ _))).mono (Nat.le_refl _) r3)
    · unfold Single
      rw [hcell, hN]
      exact ⟨rfl, rfl⟩
    · intro E par f k q1 q2 q3 q4
      have q1 : Agree s.heap.next h2.next (grown h2 N) E.h := q1
      have q3 : E.h.cell h2.next = { N with parent := par, front := f, back := k } := by rw [q3, hcell]
      have ha : Agree s.heap.next h2.next h2 E.h := fun q x1 x2 => by
        refine ⟨(q1 q x1 x2).1, ?_⟩
        rw [(q1 q x1 x2).2]
        have : q ≠ h2.next := by omega
        simp [grown, this]
      intro hf
      have hfy : Fits y := (Fits.append hf).2
      have hd := ha d (by omega) (by omega)
      have hsd : Prints E .code d y := by
        refine w6 E 0 (h2.cell d).front (h2.cell d).back (ha.mono (by omega) (by omega)) hd.1 ?_ (.inl rfl) hfy
        rw [hd.2, ← w5.1]
      have hpp : p ≠ 0 → Prints E .params p px := fun hp => by
        rcases r4 with ⟨h0, -⟩ | ⟨hne, hst⟩
        · exact absurd h0 hp
        · refine hst.says E (fun q x1 x2 => ?_) ?_
          · have e1 := w2 q (by omega) x2
            have e2 := ha q x1 (by omega)
            exact ⟨e2.1, by rw [e2.2, e1.2]⟩
          · rw [if_neg hne] at hf
            simp only [List.append_assoc] at hf
            exact (Fits.append (Fits.append hf).2).1
      refine (C48_template (e := E) (p := h2.next) (n := E.h.cell h2.next) (pt := px) (d := y) ⟨q2, rfl, by rw [q3, hN]⟩ (by rw [q3, hN]; exact hpp) (by rw [q3, hN]; exact hsd)).print' ?_ hf
      have hex : exportText (E.h.cell h2.next) = [] := by rw [q3, hN]; rfl
      have hpz : (E.h.cell h2.next).params = p := by rw [q3, hN]
      rw [hex, hpz]
      rcases r4 with ⟨h0, h1⟩ | ⟨hne, hst⟩
      · simp [h0, h1]
      · have : p ≠ 0 := by have := hst.lo; omega
        simp [this, hne]

end Verif.Parse
