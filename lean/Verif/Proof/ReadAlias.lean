import Verif.Proof.ReadBases
/-!
# `using` and `typedef`
-/
namespace Verif.Parse
open Verif.Lex (Tok)
open Verif.Ast P
open Verif.Ser hiding Env boundsText isNext

variable {e : Env} {s : St} {t u : Tok} {ts bs more rest : List Tok} {x name tname : Bytes} {tspecs : List Specifier} {a b : Nat} {ls : List Bytes}

/-- A type with bounds and a parent. -/
structure TypeAt (a b : Nat) (h : Heap) (p : Nat) (name : Bytes) (l : List Specifier) (body par : Nat) : Prop where
  lo : a ≤ p
  hi : p < b
  cell : ∃ q, h.cell p = { type := .Typename, name := name, specs := q, body := body, parent := par } ∧ SpecsIn (p + 1) b h q l

theorem TypeAt.agree {h g : Heap} {p body par : Nat} (ht : TypeAt a b h p name tspecs body par) (ha : Agree a b h g) : TypeAt a b g p name tspecs body par := by
  obtain ⟨h1, h2, q, h3, h4⟩ := ht
  exact ⟨h1, h2, q, (ha p h1 h2).2.trans h3, h4.agree (ha.mono (by omega) (Nat.le_refl _)) (Nat.le_refl _) (Nat.le_refl _)⟩

theorem typeAt_says {E : Ser.Env} {p body par : Nat} (ht : TypeAt a b E.h p name tspecs body par) (hl : Live a b E.h) (hne : name ≠ []) :
    Says E .typename p (typeText name tspecs) ∧ Says E .code p (typeText name tspecs) := by
  obtain ⟨h1, h2, q, h3, h4⟩ := ht
  obtain ⟨h5, h6⟩ := h4.slot (Nat.succ_pos _)
  have hn : nameText E p = name := by rw [nameText_of (by rw [h3]; exact hne), h3]
  obtain ⟨k1, k2⟩ := C47_typename (hl p h1 h2) h3 (fun hh => absurd rfl hh) h5 (.inl rfl)
  have hh : attrText E { type := .Typename, name := name, specs := q, body := body, parent := par } ++ tagWord 0 ++ nameText E p ++ optText q (b!" " ++ Ser.specsText tspecs) ++
      ifText (false = true) b!"..." = typeText name tspecs := by
    simp only [attrText, optText, tagWord, hn, ifText, if_true, List.nil_append, typeText]
    by_cases hq : tspecs = []
    · simp [h6.2 hq, hq]
    · have : q ≠ 0 := fun hh => hq (h6.1 hh)
      simp [this, hq]
  exact ⟨k1.cast hh, (k2 rfl).cast hh⟩

/-- What the last steps do to the heap: a new node, and the bounds and the parent of the type. -/
structure Aliased (h2 h5 : Heap) (ty q par : Nat) (N : Node) : Prop where
  next : h5.next = h2.next + 1
  node : h5.cell h2.next = N
  type : h5.cell ty = { h2.cell ty with body := q, parent := par }
  other : ∀ i, i < h2.next → i ≠ ty → h5.cell i = h2.cell i

theorem Aliased.agree {h2 h5 : Heap} {ty q par : Nat} {N : Node} (hA : Aliased h2 h5 ty q par N) {lo hi : Nat} (l0 : 0 < lo) (l1 : hi ≤ h2.next)
    (l2 : ty < lo ∨ hi ≤ ty) : Agree lo hi h2 h5 := fun i i1 i2 =>
  ⟨⟨by omega, by rw [hA.next]; omega⟩, hA.other i (by omega) (by omega)⟩

theorem Aliased.facts {h1 h2 h5 : Heap} {ty q par : Nat} {N : Node} (hA : Aliased h2 h5 ty q par N) (h0 : 0 < a) (hT : IsType a h1.next h1 ty tname tspecs 0)
    (hk : Kept h1 h2) (hn : h1.next ≤ h2.next) (hB : BoundsIn h1.next h2.next h2 q ls) :
    TypeAt a h2.next h5 ty tname tspecs q par ∧ BoundsIn a h2.next h5 q ls := by
  obtain ⟨hlo, hhi, w, w1, w2⟩ := hT
  refine ⟨⟨hlo, by omega, w, ?_, ?_⟩, ?_⟩
  · rw [hA.type, (hk ty ⟨by omega, hhi⟩).2, w1]
  · exact w2.agree ((agree_kept (Nat.succ_pos _) (Nat.le_refl _) hk).trans (hA.agree (Nat.succ_pos _) hn (.inl (Nat.lt_succ_self _)))) (Nat.le_refl _) hn
  · exact BoundsIn.agree (hA.agree (by omega) (Nat.le_refl _) (.inl hhi)) (by omega) (Nat.le_refl _) hB

/-- What stands behind a type or a name. -/
theorem ArrayToks.behind {c : Bytes} (ha : ArrayToks c ls bs) (hu : TokIs c u .Statement_End 512 b!";") :
    ∃ v l, bs ++ u :: more = v :: l ∧ Ends c v ∧ v.type ≠ .Paren_Open ∧ v.type ≠ .Identifier := by
  have huE : Ends c u := ⟨isFmt_of_type hu.type (by decide) (by decide), by rw [hu.has]; rfl, by rw [hu.type]; decide, by rw [hu.type]; decide, by rw [hu.type]; rfl,
    by rw [hu.type]; decide, fun hh => by rw [hu.type] at hh; cases hh⟩
  cases ha with
  | bounds hb =>
    cases hb with
    | nil => exact ⟨u, more, rfl, huE, by rw [hu.type]; decide, by rw [hu.type]; decide⟩
    | @cons o inner x z l ts ho _ _ _ _ _ =>
      refine ⟨o, _, rfl, ⟨isFmt_of_type ho.type (by decide) (by decide), by rw [ho.has]; rfl, by rw [ho.type]; decide, by rw [ho.type]; decide, by rw [ho.type]; rfl,
        by rw [ho.type]; decide, fun hh => by rw [ho.type] at hh; cases hh⟩, by rw [ho.type]; decide, by rw [ho.type]; decide⟩
  | @empty o ho =>
    refine ⟨o, _, rfl, ⟨isFmt_of_type ho.type (by decide) (by decide), by rw [ho.has]; rfl, by rw [ho.type]; decide, by rw [ho.type]; decide, by rw [ho.type]; rfl,
      by rw [ho.type]; decide, fun _ => ⟨91, ?_, by decide⟩⟩, by rw [ho.type]; decide, by rw [ho.type]; decide⟩
    have := ho.text
    unfold Lex.slice at this
    have h2 : ((c.drop o.start).take 2)[0]? = some 91 := by rw [show (2 : Nat) = (b!"[]").length from rfl, this]; rfl
    rw [List.getElem?_take_of_lt (by decide), List.getElem?_drop] at h2
    simpa using h2

theorem bounds_of {E : Ser.Env} {ty q : Nat} (hb : BoundsIn a b E.h q ls) (hl : Live a b E.h) (h0 : 0 < a) (hq : (E.h.cell ty).body = q) (hty : ty ≠ 0) :
    ∃ ps, Linked E.h q ps ∧ PrintAll E .code ps ls ∧ (q = 0 ↔ ls = []) ∧ Ser.boundsText E ty ls = boundsText ls := by
  obtain ⟨ps, k1, k2, k3⟩ := bounds_print hb hl h0
  refine ⟨ps, k1, k2, k3, ?_⟩
  unfold Ser.boundsText optText
  rw [if_neg hty, hq]
  by_cases h1 : q = 0
  · rw [if_pos h1, k3.1 h1]; rfl
  · rw [if_neg h1]; rfl

theorem boundsEnd_of {c : Bytes} (hu : TokIs c u .Statement_End 512 b!";") : BoundsEnd c u :=
  ⟨hu.code (by decide) (by decide), by rw [hu.type]; decide, fun hh => by rw [hu.type] at hh; cases hh⟩

/-- `using Name = type;` -/
theorem using_gives {n q : Tok} (ht : t.type = .Decl_Using) (hn : IdTok e.mem n name) (hq : TokIs e.mem q .Operator 3 b!"=") (hT : TypeToks e.mem tspecs tname ts)
    (hB : ArrayToks e.mem ls bs) (hu : TokIs e.mem u .Statement_End 512 b!";") (hQ : Quiet u (more ++ rest)) (h0 : 0 < s.heap.next)
    (h : Here e s (t :: n :: q :: ts ++ bs ++ u :: more) rest) :
    Gives parseUsing e s (t :: n :: q :: ts ++ bs ++ [u]).length (b!"using " ++ name ++ b!" = " ++ typeText tname tspecs ++ boundsText ls ++ b!";\n") := by
  refine Gives.scope ?_
  obtain ⟨sc, hsc⟩ : ∃ sc, sc = b!"parser_parse_using" :: s.scope := ⟨_, rfl⟩
  rw [← hsc]
  have g0 : Here e ⟨s.idx, s.heap, sc⟩ (t :: n :: q :: (ts ++ (bs ++ u :: more))) rest := by simpa using h.heap s.heap sc
  have htf := isFmt_of_type ht (by decide) (by decide)
  have g1 : Here e ⟨s.idx + 1, s.heap, sc⟩ (n :: q :: (ts ++ (bs ++ u :: more))) rest := g0.tail.at rfl
  have g2 : Here e ⟨s.idx + 1 + 1, s.heap, sc⟩ (q :: (ts ++ (bs ++ u :: more))) rest := g1.tail.at rfl
  have g3 : Here e ⟨s.idx + 1 + 1 + 1, s.heap, sc⟩ (ts ++ (bs ++ u :: more)) rest := g2.tail.at rfl
  have e0 := g0.eat
  have e1 := g1.eat
  have e2 := g2.eat
  rw [ht] at e0
  rw [hn.1.type] at e1
  rw [hq.type] at e2
  have hqf : isFmt q = false := isFmt_of_type hq.type (by decide) (by decide)
  have hqa : has q Lex.fAttribute = false := by rw [hq.has]; rfl
  obtain ⟨v, l, hv1, hv2, -, -⟩ := hB.behind (more := more) hu
  have g3' := g3
  rw [hv1] at g3'
  obtain ⟨h1, r1, k1, n1, q1⟩ := type_run (s := ⟨s.idx + 1 + 1 + 1, s.heap, sc⟩) hT g3' hv2 h0
  have n1 : s.heap.next < h1.next := n1
  have g4 : Here e ⟨s.idx + 1 + 1 + 1 + ts.length, h1, sc⟩ (bs ++ u :: more) rest := g3.advN.at rfl
  obtain ⟨arr, h2, r2, k2, n2, q2⟩ := arrayDecl_run (s := ⟨s.idx + 1 + 1 + 1 + ts.length, h1, sc⟩) hB (by show 0 < h1.next; omega) g4 (boundsEnd_of hu)
  have n2 : h1.next ≤ h2.next := n2
  have g5 : Here e ⟨s.idx + 1 + 1 + 1 + ts.length + bs.length, h2, sc⟩ (u :: more) rest := g4.advN.at rfl
  have r3 := endStmt_run (s := ⟨s.idx + 1 + 1 + 1 + ts.length + bs.length, h2, sc⟩) hu hQ g5
  obtain ⟨i, hi⟩ : ∃ i, i = s.idx + (t :: n :: q :: ts ++ bs ++ [u]).length := ⟨_, rfl⟩
  have hst : (St.mk (s.idx + 1 + 1 + 1 + ts.length + bs.length) h2 sc).adv 1 = ⟨i, h2, sc⟩ := by
    rw [hi]
    simp [St.adv]
    omega
  rw [hst] at r3
  obtain ⟨N, hN⟩ : ∃ N : Node, N = { type := .Using, name := name, typ := s.heap.next } := ⟨_, rfl⟩
  obtain ⟨N0, hN0⟩ : ∃ N : Node, N = { type := .Using, name := name } := ⟨_, rfl⟩
  have htv : s.heap.next < h2.next := by omega
  have hcell : h2.cell s.heap.next = h1.cell s.heap.next := (k2 _ ⟨h0, n1⟩).2
  have hpar : (h2.cell s.heap.next).parent = 0 ∧ (h2.cell s.heap.next).body = 0 := by
    obtain ⟨-, -, w, w1, -⟩ := q1
    have w1 : h1.cell s.heap.next = _ := w1
    rw [hcell, w1]
    exact ⟨rfl, rfl⟩
  obtain ⟨h4, hh4⟩ : ∃ h4, h4 = changed (grown h2 N0) h2.next N := ⟨_, rfl⟩
  obtain ⟨h5, hh5⟩ : ∃ h5, h5 = if arr = 0 then h4 else changed h4 s.heap.next { h2.cell s.heap.next with body := arr } := ⟨_, rfl⟩
  have hA : Aliased h2 h5 s.heap.next arr 0 N := by
    have hne : h2.next ≠ s.heap.next := by omega
    by_cases harr : arr = 0
    · rw [if_pos harr] at hh5
      subst hh5 hh4
      refine ⟨rfl, by simp [changed], ?_, fun i i1 i2 => ?_⟩
      · have : s.heap.next ≠ h2.next := by omega
        simp only [changed, grown, if_neg this]
        rw [harr, ← hpar.2]
        have := hpar.1
        generalize h2.cell s.heap.next = nd at *
        cases nd
        simp_all
      · have : i ≠ h2.next := by omega
        simp [changed, grown, this]
    · rw [if_neg harr] at hh5
      subst hh5 hh4
      refine ⟨rfl, by simp [changed, hne], ?_, fun i i1 i2 => ?_⟩
      · simp only [changed, if_true]
        have := hpar.1
        generalize h2.cell s.heap.next = nd at *
        cases nd
        simp_all
      · have : i ≠ h2.next := by omega
        simp [changed, grown, this, i2]
  obtain ⟨f1, f2⟩ := hA.facts (a := s.heap.next) h0 q1 k2 n2 q2
  refine ⟨h2.next, h5, ?_, ?_, by show s.heap.next ≤ _; omega, hA.next.symm, ?_, ?_⟩
  · show _ = Res.ok (h2.next, (⟨s.idx + _, h5, sc⟩ : St))
    rw [← hi]
    refine bind_run (g0.exportFlag htf (by rw [ht]; decide)) ?_
    refine bind_run e0 ?_
    refine bind_run (g1.cur hn.fmt) ?_
    simp only [hn.1.type, reduceCtorEq, if_false]
    refine bind_run (pureP _ _ _) ?_
    refine bind_run (g1.cur hn.fmt) ?_
    refine bind_run hn.1.bytesP ?_
    refine bind_run e1 ?_
    simp only [Bool.false_eq_true, if_false]
    refine bind_run (g2.attributes hqf hqa) ?_
    refine bind_run (g2.cur hqf) ?_
    simp only [show has q Lex.fAssign = true by rw [hq.has]; rfl, if_true]
    refine bind_run (g2.attributes hqf hqa) ?_
    refine bind_run e2 ?_
    refine bind_run r1 ?_
    refine bind_run r2 ?_
    refine bind_run (pureP _ _ _) ?_
    refine bind_run r3 ?_
    refine bind_run (make_run (s := ⟨i, h2, sc⟩) (by show 0 < h2.next; omega) _) ?_
    rw [show ({ type := .Using, name := name, moduleFlags := 0 } : Node) = N0 by rw [hN0]]
    simp only [Bool.not_false, if_true]
    refine bind_run (upd_run (s := ⟨i, grown h2 N0, sc⟩) ⟨by show 0 < h2.next; omega, by show h2.next < h2.next + 1; omega⟩) ?_
    have : ({ (grown h2 N0).cell h2.next with typ := s.heap.next, attributes := 0, inlineCmt := 0 } : Node) = N := by
      simp only [grown, if_true]
      rw [hN, hN0]
    simp only [this]
    rw [← hh4]
    by_cases harr : arr = 0
    · simp only [harr, ne_eq, not_true_eq_false, if_false]
      rw [if_pos harr] at hh5
      rw [hh5]
      rfl
    · simp only [harr, ne_eq, not_false_eq_true, if_true]
      rw [if_neg harr] at hh5
      refine bind_run (upd_run (s := ⟨i, h4, sc⟩) ⟨h0, by rw [hh4]; show s.heap.next < h2.next + 1; omega⟩) ?_
      have : h4.cell s.heap.next = h2.cell s.heap.next := by
        rw [hh4]
        have : s.heap.next ≠ h2.next := by omega
        simp [changed, grown, this]
      simp only [this, ← hh5]
      rfl
  · exact (agree_kept (Nat.succ_pos _) (Nat.le_refl _) (k1.trans k2)).trans (hA.agree (Nat.succ_pos _) (by show s.heap.next ≤ _; omega) (.inr (Nat.le_refl _)))
  · unfold Single
    rw [hA.node, hN]
    exact ⟨rfl, rfl⟩
  · intro E par g k w1 w2 w3 w4 hf
    rw [hA.node, hN] at w3
    have w1 : Agree s.heap.next h2.next h5 E.h := w1
    have ft := f1.agree w1
    have hnm : nameText E h2.next = name := by rw [nameText_of (by rw [w3]; exact hn.2), w3]
    obtain ⟨-, -, -, -, -, htn⟩ := hT.first
    obtain ⟨hs1, -⟩ := typeAt_says ft w1.live htn
    have htb : (E.h.cell s.heap.next).body = arr := by obtain ⟨-, -, z, z1, -⟩ := ft; rw [z1]
    obtain ⟨ps, l1, l2, l3, l4⟩ := bounds_of (ty := s.heap.next) (BoundsIn.agree w1 (Nat.le_refl _) (Nat.le_refl _) f2) w1.live h0 htb (by omega)
    have htp : Prints E .typename s.heap.next (typeText tname tspecs) := hs1 (Fits.append (Fits.append (Fits.append hf).1).1).2
    refine (C47_using (e := E) (n := E.h.cell h2.next) (tt := typeText tname tspecs) (l := ps) (ts := ls) ⟨w2, rfl, by rw [w3]⟩ (by rw [w3]; exact fun hh => absurd rfl hh)
      (by rw [w3]; exact fun hh => absurd rfl hh) (by rw [w3]; exact fun _ => w1.live _ (Nat.le_refl _) htv) (by rw [w3]; exact fun _ => htp)
      (by rw [w3]; simp only []; rw [htb]; exact fun _ _ => l1) l2).print' ?_ hf
    rw [hnm, w3]
    simp only []
    rw [l4]
    have : s.heap.next ≠ 0 := by omega
    simp [exportText, attrText, optText, cmtText, ifText, exported, this]

/-- `using namespace Name;` -/
theorem usingSpace_gives {v n : Tok} (ht : t.type = .Decl_Using) (hv : v.type = .Decl_Namespace) (hn : IdTok e.mem n name)
    (hu : TokIs e.mem u .Statement_End 512 b!";") (hQ : Quiet u (more ++ rest)) (h0 : 0 < s.heap.next) (h : Here e s (t :: v :: n :: u :: more) rest) :
    Gives parseUsing e s 4 (b!"using namespace " ++ name ++ b!";\n") := by
  refine Gives.scope ?_
  obtain ⟨sc, hsc⟩ : ∃ sc, sc = b!"parser_parse_using" :: s.scope := ⟨_, rfl⟩
  rw [← hsc]
  have g0 : Here e ⟨s.idx, s.heap, sc⟩ (t :: v :: n :: u :: more) rest := h.heap s.heap sc
  have g1 : Here e ⟨s.idx + 1, s.heap, sc⟩ (v :: n :: u :: more) rest := g0.tail.at rfl
  have g2 : Here e ⟨s.idx + 1 + 1, s.heap, sc⟩ (n :: u :: more) rest := g1.tail.at rfl
  have g3 : Here e ⟨s.idx + 1 + 1 + 1, s.heap, sc⟩ (u :: more) rest := g2.tail.at rfl
  have e0 := g0.eat
  have e1 := g1.eat
  have e2 := g2.eat
  rw [ht] at e0
  rw [hv] at e1
  rw [hn.1.type] at e2
  have r3 := endStmt_run (s := ⟨s.idx + 1 + 1 + 1, s.heap, sc⟩) hu hQ g3
  refine ⟨s.heap.next, grown s.heap { type := .Using_Namespace, name := name }, ?_, agree_kept (Nat.succ_pos _) (Nat.le_refl _) (kept_grown _ _), Nat.le_refl _, rfl, ?_, ?_⟩
  · refine bind_run (g0.exportFlag (isFmt_of_type ht (by decide) (by decide)) (by rw [ht]; decide)) ?_
    refine bind_run e0 ?_
    refine bind_run (g1.cur (isFmt_of_type hv (by decide) (by decide))) ?_
    simp only [hv, if_true]
    refine bind_run e1 ?_
    refine bind_run (pureP _ _ _) ?_
    refine bind_run (g2.cur hn.fmt) ?_
    refine bind_run hn.1.bytesP ?_
    refine bind_run e2 ?_
    simp only [if_true]
    refine bind_run (pureP _ _ _) ?_
    refine bind_run r3 ?_
    refine bind_run (make_run (s := (St.mk (s.idx + 1 + 1 + 1) s.heap sc).adv 1) h0 _) ?_
    simp only [Bool.not_true, Bool.false_eq_true, if_false]
    rfl
  · unfold Single
    simp [grown, isBodyType]
  · intro E par g k w1 w2 w3 w4 hf
    simp only [grown, if_true] at w3
    have hnm : nameText E s.heap.next = name := by rw [nameText_of (by rw [w3]; exact hn.2), w3]
    refine (C48_using_namespace (e := E) ⟨w2, rfl, by rw [w3]⟩ (by rw [w3])).print' ?_ hf
    rw [hnm]

theorem not_tag {f : Tok} (h : f.type ∈ typeStarts) : tagOf f.type = 0 ∧ f.type ≠ .Preprocess_Macro_Typename ∧ f.type ≠ .Preprocess_Macro_Stmt := by
  revert h
  generalize f.type = y
  cases y <;> decide

/-- `typedef type Name;` -/
theorem typedef_gives {r : Rec} {n : Tok} (ht : t.type = .Decl_Typedef) (hT : TypeToks e.mem tspecs tname ts) (hn : IdTok e.mem n name)
    (hB : ArrayToks e.mem ls bs) (hl : ls.length ≤ 1) (hu : TokIs e.mem u .Statement_End 512 b!";") (hQ : Quiet u (more ++ rest)) (h0 : 0 < s.heap.next)
    (h : Here e s (t :: ts ++ n :: bs ++ u :: more) rest) :
    Gives (typedefWith r) e s (t :: ts ++ n :: bs ++ [u]).length (b!"typedef " ++ typeText tname tspecs ++ b!" " ++ name ++ boundsText ls ++ b!";\n") := by
  refine Gives.scope ?_
  obtain ⟨sc, hsc⟩ : ∃ sc, sc = b!"parser_parse_typedef" :: s.scope := ⟨_, rfl⟩
  rw [← hsc]
  have g0 : Here e ⟨s.idx, s.heap, sc⟩ (t :: (ts ++ n :: (bs ++ u :: more))) rest := by simpa using h.heap s.heap sc
  have htf := isFmt_of_type ht (by decide) (by decide)
  have g1 : Here e ⟨s.idx + 1, s.heap, sc⟩ (ts ++ n :: (bs ++ u :: more)) rest := g0.tail.at rfl
  have e0 := g0.eat
  rw [ht] at e0
  obtain ⟨f, tl, hf1, hf2, hf3⟩ := hT.starts
  obtain ⟨hf4, hf5, hf6⟩ := not_tag hf3
  have g1' := g1
  rw [hf1] at g1'
  obtain ⟨v, l, hv1, hv2, hv3, hv4⟩ := hB.behind (more := more) hu
  obtain ⟨h1, r1, k1, n1, q1⟩ := typeWith_runs (s := ⟨s.idx + 1, s.heap, sc⟩) (params := Parse.params) (tmpl := false) (td := true) hT g1 hn.ends
    (fun _ => ⟨v, by rw [hv1]; rfl, hv3⟩) h0
  have n1 : s.heap.next < h1.next := n1
  have g2 : Here e ⟨s.idx + 1 + ts.length, h1, sc⟩ (n :: (bs ++ u :: more)) rest := g1.advN.at rfl
  have e2 := g2.eat
  rw [hn.1.type] at e2
  have g3 : Here e ⟨s.idx + 1 + ts.length + 1, h1, sc⟩ (bs ++ u :: more) rest := g2.tail.at rfl
  obtain ⟨arr, h2, r2, k2, n2, q2⟩ := arrayDecl_run (s := ⟨s.idx + 1 + ts.length + 1, h1, sc⟩) hB (by show 0 < h1.next; omega) g3 (boundsEnd_of hu)
  have n2 : h1.next ≤ h2.next := n2
  have g5 : Here e ⟨s.idx + 1 + ts.length + 1 + bs.length, h2, sc⟩ (u :: more) rest := g3.advN.at rfl
  have r3 := endStmt_run (s := ⟨s.idx + 1 + ts.length + 1 + bs.length, h2, sc⟩) hu hQ g5
  obtain ⟨i, hi⟩ : ∃ i, i = s.idx + (t :: ts ++ n :: bs ++ [u]).length := ⟨_, rfl⟩
  have hst : (St.mk (s.idx + 1 + ts.length + 1 + bs.length) h2 sc).adv 1 = ⟨i, h2, sc⟩ := by
    rw [hi]
    simp [St.adv]
    omega
  rw [hst] at r3
  obtain ⟨N, hN⟩ : ∃ N : Node, N = { type := .Typedef, name := name, typ := s.heap.next } := ⟨_, rfl⟩
  have htv : s.heap.next < h2.next := by omega
  have hcell : h2.cell s.heap.next = h1.cell s.heap.next := (k2 _ ⟨h0, n1⟩).2
  have hbod : (h2.cell s.heap.next).body = 0 ∧ (h2.cell s.heap.next).type = .Typename := by
    obtain ⟨-, -, w, w1, -⟩ := q1
    have w1 : h1.cell s.heap.next = _ := w1
    rw [hcell, w1]
    exact ⟨rfl, rfl⟩
  obtain ⟨M, hM⟩ : ∃ M : Node, M = { h2.cell s.heap.next with parent := h2.next } := ⟨_, rfl⟩
  obtain ⟨h4, hh4⟩ : ∃ h4, h4 = changed (grown h2 N) s.heap.next M := ⟨_, rfl⟩
  obtain ⟨h5, hh5⟩ : ∃ h5, h5 = if arr = 0 then h4 else changed h4 s.heap.next { M with body := arr } := ⟨_, rfl⟩
  have hMt : M.type = .Typename := by rw [hM]; exact hbod.2
  have hne : h2.next ≠ s.heap.next := by omega
  have hA : Aliased h2 h5 s.heap.next arr h2.next N := by
    by_cases harr : arr = 0
    · rw [if_pos harr] at hh5
      subst hh5 hh4
      refine ⟨rfl, by simp [changed, grown, hne], ?_, fun i i1 i2 => ?_⟩
      · simp only [changed, if_true]
        rw [hM, harr, ← hbod.1]
      · have : i ≠ h2.next := by omega
        simp [changed, grown, this, i2]
    · rw [if_neg harr] at hh5
      subst hh5 hh4
      refine ⟨rfl, by simp [changed, grown, hne], ?_, fun i i1 i2 => ?_⟩
      · simp only [changed, if_true]
        rw [hM]
      · have : i ≠ h2.next := by omega
        simp [changed, grown, this, i2]
  obtain ⟨f1, f2⟩ := hA.facts (a := s.heap.next) h0 q1 k2 n2 q2
  refine ⟨h2.next, h5, ?_, ?_, by show s.heap.next ≤ _; omega, hA.next.symm, ?_, ?_⟩
  · show _ = Res.ok (h2.next, (⟨s.idx + _, h5, sc⟩ : St))
    rw [← hi]
    refine bind_run (g0.exportFlag htf (by rw [ht]; decide)) ?_
    refine bind_run e0 ?_
    refine bind_run (g1'.leftAnd hf2 _) ?_
    simp only [hf5, hf6, or_self, decide_false, Bool.false_eq_true, if_false]
    refine bind_run (a := (s.heap.next, Txt.of n, false, arr)) (s' := ⟨s.idx + 1 + ts.length + 1 + bs.length, h2, sc⟩) ?_ ?_
    · unfold typedefOther
      refine bind_run (g1'.cur hf2) ?_
      simp only [hf4, ne_eq, not_true_eq_false, if_false]
      refine bind_run r1 ?_
      refine bind_run (g2.check hn.fmt _) ?_
      simp only [hn.1.type, decide_true, if_true]
      refine bind_run (g2.cur hn.fmt) ?_
      refine bind_run e2 ?_
      refine bind_run (pureP _ _ _) ?_
      refine bind_run r2 ?_
      rfl
    refine bind_run r3 ?_
    simp only [Bool.false_eq_true, if_false]
    refine bind_run hn.1.bytesP ?_
    refine bind_run (make_run (s := ⟨i, h2, sc⟩) (by show 0 < h2.next; omega) _) ?_
    rw [show ({ type := .Typedef, moduleFlags := 0, name := name, num := 0, typ := s.heap.next } : Node) = N by rw [hN]]
    refine bind_run (upd_run (s := ⟨i, grown h2 N, sc⟩) ⟨h0, by show s.heap.next < h2.next + 1; omega⟩) ?_
    have : ({ (grown h2 N).cell s.heap.next with parent := h2.next } : Node) = M := by
      have : s.heap.next ≠ h2.next := by omega
      simp only [grown, if_neg this]
      rw [hM]
    simp only [this]
    rw [← hh4]
    have hv4 : h4.Valid s.heap.next := ⟨h0, by rw [hh4]; show s.heap.next < h2.next + 1; omega⟩
    have hc4 : h4.cell s.heap.next = M := by rw [hh4]; simp [changed]
    refine bind_run (a := M) (s' := ⟨i, h4, sc⟩) ?_ ?_
    · unfold node
      show (h4.get s.heap.next).bind _ = _
      rw [get_ok hv4, hc4]
      rfl
    by_cases harr : arr = 0
    · simp only [harr, ne_eq, not_true_eq_false, and_false, if_false]
      rw [if_pos harr] at hh5
      rw [hh5]
      rfl
    · simp only [hMt, harr, ne_eq, not_false_eq_true, and_self, if_true]
      rw [if_neg harr] at hh5
      refine bind_run (upd_run (s := ⟨i, h4, sc⟩) hv4) ?_
      simp only [hc4, ← hh5, ne_eq, not_true_eq_false, if_false]
      rfl
  · exact (agree_kept (Nat.succ_pos _) (Nat.le_refl _) (k1.trans k2)).trans (hA.agree (Nat.succ_pos _) (by show s.heap.next ≤ _; omega) (.inr (Nat.le_refl _)))
  · unfold Single
    rw [hA.node, hN]
    exact ⟨rfl, rfl⟩
  · intro E par g k w1 w2 w3 w4 hf
    rw [hA.node, hN] at w3
    have w1 : Agree s.heap.next h2.next h5 E.h := w1
    have ft := f1.agree w1
    have hnm : nameText E h2.next = name := by rw [nameText_of (by rw [w3]; exact hn.2), w3]
    obtain ⟨-, -, -, -, -, htn⟩ := hT.first
    obtain ⟨-, hs1⟩ := typeAt_says ft w1.live htn
    obtain ⟨z, z1⟩ : ∃ z, E.h.cell s.heap.next = { type := .Typename, name := tname, specs := z, body := arr, parent := h2.next } := by
      obtain ⟨-, -, z, z1, -⟩ := ft; exact ⟨z, z1⟩
    have htb : (E.h.cell s.heap.next).body = arr := by rw [z1]
    obtain ⟨ps, l1, l2, l3, l4⟩ := bounds_of (ty := s.heap.next) (BoundsIn.agree w1 (Nat.le_refl _) (Nat.le_refl _) f2) w1.live h0 htb (by omega)
    have htp : Prints E .code s.heap.next (typeText tname tspecs) := hs1 (Fits.append (Fits.append (Fits.append (Fits.append (Fits.append hf).1).1).1).1).2
    refine (C47_typedef (e := E) (n := E.h.cell h2.next) (tt := typeText tname tspecs) (l := ps) (ts := ls) ⟨w2, rfl, by rw [w3]⟩
      (by rw [w3]; exact w1.live _ (Nat.le_refl _) htv) (by rw [w3]; exact htp) (by rw [w3]; exact fun hh => absurd rfl hh)
      (by rw [w3]; simp only []; rw [htb]; exact fun _ _ => l1) l2).print' ?_ hf
    rw [hnm, w3]
    simp only []
    rw [z1]
    simp only [true_and]
    match ls, hl, l3 with
    | [], _, l3 =>
      have : arr = 0 := l3.2 rfl
      simp [this, exportText, optText, cmtText, ifText, exported, boundsText]
    | [y], _, l3 =>
      have : arr ≠ 0 := fun hh => by have := l3.1 hh; cases this
      simp [this, exportText, optText, cmtText, ifText, exported, boundsText, wrapped]

/-- `using` and `typedef`, by the function for the keyword. -/
theorem alias_gives (hA : AliasToks e.mem y us) (hQ : ∀ u, us.getLast? = some u → Quiet u (more ++ rest)) (h0 : 0 < s.heap.next) (h : Here e s (us ++ more) rest) :
    ∃ t tl, us = t :: tl ∧ ((t.type = .Decl_Using ∧ Gives parseUsing e s us.length y) ∨ (t.type = .Decl_Typedef ∧ ∀ r, Gives (typedefWith r) e s us.length y)) := by
  cases hA with
  | @alias t n name q tspecs tname ts l bs u h1 h2 h3 h4 h5 h6 =>
    exact ⟨_, _, rfl, .inl ⟨h1, using_gives h1 h2 h3 h4 h5 h6 (hQ u (by rw [List.getLast?_append]; rfl)) h0 (by simpa using h)⟩⟩
  | @space t v n name u h1 h2 h3 h4 => exact ⟨_, _, rfl, .inl ⟨h1, usingSpace_gives h1 h2 h3 h4 (hQ u rfl) h0 h⟩⟩
  | @typedef t tspecs tname ts n name l bs u h1 h2 h3 h4 h5 h6 =>
    exact ⟨_, _, rfl, .inr ⟨h1, fun r => typedef_gives h1 h2 h3 h4 h5 h6 (hQ u (by rw [List.getLast?_append]; rfl)) h0 (by simpa using h)⟩⟩

theorem AliasToks.last {c : Bytes} (hA : AliasToks c y us) : ∃ l u, us = l ++ [u] ∧ u.type = .Statement_End := by
  cases hA with
  | alias h1 h2 h3 h4 h5 h6 => exact ⟨_, _, rfl, h6.type⟩
  | @space t v n name u h1 h2 h3 h4 => exact ⟨[t, v, n], u, rfl, h4.type⟩
  | typedef h1 h2 h3 h4 h5 h6 => exact ⟨_, _, rfl, h6.type⟩

end Verif.Parse
