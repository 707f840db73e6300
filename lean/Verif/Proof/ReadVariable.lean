import Verif.Proof.ReadPrint
/-!
# A variable is parsed and printed
-/
namespace Verif.Parse
open Verif.Lex (Tok)
open Verif.Ast P

variable {e : Env} {s : St} {t u : Tok} {ts vs more rest : List Tok} {x name tname tail : Bytes} {specs tspecs : List Specifier} {a b : Nat}

theorem varRest_run (hu : TokIs e.mem u .Statement_End 512 b!";") (hm : NoComment u more) (h : Here e s (u :: more) rest) :
    varRest e s = .ok ((0, 0), s.adv 1) := by
  have huc := hu.code (by decide) (by decide)
  have heat := h.eat
  rw [hu.type] at heat
  have h1 := h.tail
  unfold varRest
  refine bind_run (h.cur huc.fmt) ?_
  simp only [hu.type, reduceCtorEq, if_false]
  refine bind_run (pureP _ _ _) ?_
  refine bind_run (h.cur huc.fmt) ?_
  refine bind_run heat ?_
  cases more with
  | nil =>
    refine bind_run h1.done ?_
    simp only [Bool.false_eq_true, if_false]
    rfl
  | cons t more =>
    refine bind_run h1.left ?_
    simp only [if_true]
    refine bind_run (a := 0) (s' := s.adv 1) ?_ rfl
    unfold inlineCmt
    refine bind_run h1.curN ?_
    rw [if_neg (hm t rfl)]
    rfl

theorem ArrayToks.first {c : Bytes} {l : List Bytes} {ts : List Tok} (h : ArrayToks c l ts) : ts = [] ∨ ∃ t tl, ts = t :: tl ∧ NameEnds c t := by
  cases h with
  | bounds hb =>
    cases hb with
    | nil => exact .inl rfl
    | @cons o inner x z l ts ho =>
      exact .inr ⟨_, _, rfl, isFmt_of_type ho.type (by decide) (by decide), by rw [ho.type]; decide, fun hh => by rw [ho.type] at hh; cases hh⟩
  | @empty t ht =>
    refine .inr ⟨t, [], rfl, isFmt_of_type ht.type (by decide) (by decide), by rw [ht.type]; decide, fun _ => ⟨91, ?_, by decide⟩⟩
    have := ht.text
    unfold Lex.slice at this
    have h2 : ((c.drop t.start).take 2)[0]? = some 91 := by rw [show (2 : Nat) = (b!"[]").length from rfl, this]; rfl
    rw [List.getElem?_take_of_lt (by decide), List.getElem?_drop] at h2
    simpa using h2

theorem TokIs.byte0 {c : Bytes} {ty : TokType} {fl : Nat} {b : UInt8} (h : TokIs c t ty fl [b]) : c[t.start]? = some b := by
  have := h.text
  unfold Lex.slice at this
  have h2 : ((c.drop t.start).take 1)[0]? = some b := by rw [show (1 : Nat) = [b].length from rfl, this]; rfl
  rw [List.getElem?_take_of_lt (by decide), List.getElem?_drop] at h2
  simpa using h2

/-- The first token of a value or of the end ends a name and bounds. -/
theorem InitToks.first {c : Bytes} (h : InitToks c u x vs) (hu : TokIs c u .Statement_End 512 b!";") : ∃ t tl, vs ++ u :: more = t :: tl ∧ NameEnds c t ∧ BoundsEnd c t := by
  have key : ∀ {t : Tok} {tl : List Tok} {ty : TokType} {fl : Nat} {b : UInt8}, TokIs c t ty fl [b] → ty ≠ .NewLine → ty ≠ .Comment → ty ≠ .Access_StaticSymbol →
      ty ≠ .BraceSquare_Open → b ≠ 60 → b ≠ 91 → ∃ t' tl', t :: tl = t' :: tl' ∧ NameEnds c t' ∧ BoundsEnd c t' := by
    intro t tl ty fl b ht h1 h2 h3 h4 h5 h6
    refine ⟨t, tl, rfl, ⟨isFmt_of_type ht.type h1 h2, by rw [ht.type]; exact h3, fun _ => ⟨b, ht.byte0, h5⟩⟩,
      ⟨ht.code h1 h2, by rw [ht.type]; exact h4, fun _ => ⟨b, ht.byte0, h6⟩⟩⟩
  cases h with
  | none => exact key hu (by decide) (by decide) (by decide) (by decide) (by decide) (by decide)
  | value hq => exact key hq (by decide) (by decide) (by decide) (by decide) (by decide) (by decide)
  | braces hq => exact key hq (by decide) (by decide) (by decide) (by decide) (by decide) (by decide)
  | parens hq => exact key hq (by decide) (by decide) (by decide) (by decide) (by decide) (by decide)

theorem TailToks.first {c : Bytes} (h : TailToks c u x vs) (hu : TokIs c u .Statement_End 512 b!";") : ∃ t tl, vs ++ u :: more = t :: tl ∧ NameEnds c t := by
  cases h with
  | array ha hi =>
    obtain ⟨t, tl, h1, h2, -⟩ := hi.first (more := more) hu
    rcases ha.first with rfl | ⟨t', tl', rfl, h3⟩
    · exact ⟨t, tl, by simpa using h1, h2⟩
    · exact ⟨t', _, rfl, h3⟩
  | @bits o vs x ho =>
    exact ⟨o, _, rfl, isFmt_of_type ho.type (by decide) (by decide), by rw [ho.type]; decide, fun hh => by rw [ho.type] at hh; cases hh⟩

/-- What stands behind the name of a variable is parsed: bounds, value, size. -/
theorem tail_run (ht : TailToks e.mem u tail vs) (hu : TokIs e.mem u .Statement_End 512 b!";") (hn : 0 < s.heap.next) (h : Here e s (vs ++ u :: more) rest) :
    ∃ q h1 ts vs' ls x, arrayDecl e s = .ok (q, ⟨s.idx + ts.length, h1, s.scope⟩) ∧ vs = ts ++ vs' ∧ Kept s.heap h1 ∧ s.heap.next ≤ h1.next ∧
      BoundsIn s.heap.next h1.next h1 q ls ∧ InitRuns e ⟨s.idx + ts.length, h1, s.scope⟩ vs' x ∧ tail = boundsText ls ++ x ∧
      (ls = [] ∨ ∀ a b h p k q, InitIn a b h p k q x → q = 0) := by
  cases ht with
  | @array l ts x vs ha hi =>
    rw [List.append_assoc] at h
    obtain ⟨t, tl, h1, h2, h3⟩ := hi.first (more := more) hu
    have h' := h
    rw [h1] at h'
    obtain ⟨q, hp, r1, r2, r3, r4⟩ := arrayDecl_run ha hn h' h3
    refine ⟨q, hp, ts, vs, l, x, r1, rfl, r2, r3, r4, ?_, rfl, .inr ?_⟩
    · exact init_run hi hu (Nat.lt_of_lt_of_le hn r3) (h.advN.at rfl)
    · intro a b h p k q hin
      generalize hy : x = y at hin
      cases hin with
      | none => rfl
      | value => rfl
      | parens => rfl
      | bits =>
        cases hi with
        | none => cases hy
        | value => cases hy
        | braces => cases hy
        | parens => cases hy
  | @bits o vs x ho hv hx hne =>
    have h' := h
    rw [List.cons_append] at h'
    obtain ⟨q, hp, r1, r2, r3, r4⟩ := arrayDecl_run (.bounds .nil) hn h' ⟨ho.code (by decide) (by decide), by rw [ho.type]; decide, fun hh => by rw [ho.type] at hh; cases hh⟩
    refine ⟨q, hp, [], o :: vs, [], _, r1, rfl, r2, r3, r4, ?_, rfl, .inl rfl⟩
    exact bits_run ho hv hx hne hu (Nat.lt_of_lt_of_le hn r3) (h.at rfl)

/-- The rest of a variable, whose specifiers and type have been parsed. -/
theorem variableAfterName_run {sq ty : Nat} (h0 : 0 < a) (hS : SpecsIn a ty s.heap sq specs) (hT : IsType a s.heap.next s.heap ty tname tspecs 0) (htn : tname ≠ [])
    (hne : name ≠ []) (ht : TailToks e.mem u tail vs) (hu : TokIs e.mem u .Statement_End 512 b!";") (hm : NoComment u more)
    (h : Here e s (vs ++ u :: more) rest) :
    ∃ p h', variableAfterName 0 0 sq ty name e s = .ok (p, ⟨s.idx + (vs ++ [u]).length, h', s.scope⟩) ∧ Agree 1 a s.heap h' ∧ a ≤ p ∧ p + 1 = h'.next ∧ Single h' p ∧
      Shown a p h' ((if specs = [] then [] else Ser.specsText specs) ++ typeText tname tspecs ++ b!" " ++ name ++ tail ++ b!";\n") := by
  have hn : 0 < s.heap.next := by have := hT.hi; omega
  have hty0 : ty ≠ 0 := by have := hT.lo; omega
  have hs0 := h.heap s.heap (b!"parse_variable_after_name" :: s.scope)
  obtain ⟨q, h1, ts, vs', ls, x, r1, r2, r3, r4, r5, r6, r7, r8⟩ := tail_run ht hu (s := ⟨s.idx, s.heap, b!"parse_variable_after_name" :: s.scope⟩) hn hs0
  subst r2
  obtain ⟨t, x1, s1, x2, s2, x3, k3, s3, x4, h2, i1, i2, i3, i4, i5, i6, i7, i8⟩ := r6
  rw [List.append_assoc] at hs0
  have hend : Here e ⟨s.idx + ts.length + vs'.length, h2, b!"parse_variable_after_name" :: s.scope⟩ (u :: more) rest := hs0.advN.advN.at rfl
  have hrest := varRest_run hu hm hend
  have hidx : (St.mk (s.idx + ts.length + vs'.length) h2 (b!"parse_variable_after_name" :: s.scope)).adv 1 =
      ⟨s.idx + (ts ++ vs' ++ [u]).length, h2, b!"parse_variable_after_name" :: s.scope⟩ := by
    simp [St.adv, Nat.add_assoc]
  rw [hidx] at hrest
  have hn2 : s.heap.next ≤ h2.next := Nat.le_trans r4 i7
  have hk2 : Kept s.heap h2 := r3.trans i6
  have hn2' : 0 < h2.next := by omega
  have htv : h2.Valid ty := (hk2 ty ⟨by omega, hT.hi⟩).1
  have htp : ty ≠ h2.next := Nat.ne_of_lt htv.2
  obtain ⟨n0, hn0⟩ : ∃ n0 : Node, n0 = { type := .Variable, name := name, typ := ty, params := x4, specs := sq, body := x3 } := ⟨_, rfl⟩
  obtain ⟨h4, hh4⟩ : ∃ h4, h4 = if q = 0 then grown h2 n0 else changed (grown h2 n0) ty { h2.cell ty with body := q } := ⟨_, rfl⟩
  have h4next : h4.next = h2.next + 1 := by rw [hh4]; split <;> rfl
  have h4p : h4.cell h2.next = n0 := by
    rw [hh4]
    split
    · simp [grown]
    · simp [grown, changed, htp.symm]
  have hvp : h4.Valid h2.next := ⟨hn2', by rw [h4next]; exact Nat.lt_succ_self _⟩
  obtain ⟨h5, hh5⟩ : ∃ h5, h5 = changed h4 h2.next { n0 with num := if k3 then 1 else 0 } := ⟨_, rfl⟩
  have h5next : h5.next = h2.next + 1 := by rw [hh5]; exact h4next
  have hag : ∀ lo hi, 0 < lo → hi ≤ h2.next → (ty < lo ∨ hi ≤ ty) → Agree lo hi h2 h5 := by
    intro lo hi l0 l1 l2
    have g1 : Agree lo hi h2 (grown h2 n0) := agree_kept l0 l1 (kept_grown _ _)
    have g2 : Agree lo hi h2 h4 := by
      rw [hh4]
      split
      · exact g1
      · exact g1.trans (agree_changed l0 (Nat.le_succ_of_le l1) l2)
    rw [hh5]
    exact g2.trans (agree_changed l0 (by rw [h4next]; omega) (.inr l1))
  have hcell : h5.cell h2.next = { type := .Variable, name := name, typ := ty, params := x4, specs := sq, body := x3, num := if k3 then 1 else 0 } := by
    rw [hh5, hn0]
    simp [changed]
  have hlo := hT.lo
  have hhi := hT.hi
  have f1 : SpecsIn a h2.next h5 sq specs := hS.agree ((agree_kept h0 (Nat.le_of_lt hhi) hk2).trans (hag a ty h0 (by omega) (.inr (Nat.le_refl _))))
    (Nat.le_refl _) (by omega)
  have f2 : IsType a h2.next h5 ty tname tspecs q := by
    obtain ⟨-, -, w, w1, w2⟩ := hT
    refine ⟨hlo, by omega, w, ?_, ?_⟩
    · have : h5.cell ty = h4.cell ty := by rw [hh5]; simp [changed, htp]
      rw [this, hh4, (hk2 ty ⟨by omega, hhi⟩).2, w1]
      split
      · next hq => subst hq; simp only [grown, if_neg htp]; rw [(hk2 ty ⟨by omega, hhi⟩).2, w1]
      · simp [changed]
    · exact w2.agree ((agree_kept (Nat.succ_pos _) (Nat.le_refl _) hk2).trans (hag _ _ (Nat.succ_pos _) hn2 (.inl (Nat.lt_succ_self _)))) (Nat.le_refl _) hn2
  have f3 : BoundsIn a h2.next h5 q ls := BoundsIn.agree ((agree_kept hn (Nat.le_refl _) i6).trans (hag _ _ hn i7 (.inl hhi))) (by omega) i7 r5
  have f4 : InitIn a h2.next h5 x3 k3 x4 x := i8.agree (hag _ _ (Nat.lt_of_lt_of_le hn r4) (Nat.le_refl _) (.inl (Nat.lt_of_lt_of_le hhi r4))) (by
    have : s.heap.next ≤ h1.next := r4; show a ≤ h1.next; omega) (Nat.le_refl _)
  refine ⟨h2.next, h5, inScope_run (sc := b!"parse_variable_after_name" :: s.scope) ?_ rfl, ?_, by omega, h5next.symm, ⟨by rw [hcell], by rw [hcell]; rfl⟩, ?_⟩
  · refine bind_run r1 ?_
    refine bind_run i1 ?_
    refine ite_bind (bind_run i2 ?_)
    refine bind_run i3 ?_
    refine bind_run i4 ?_
    refine bind_run i5 ?_
    simp only [if_neg hty0]
    refine bind_run hrest ?_
    refine bind_run (make_run (s := ⟨s.idx + (ts ++ vs' ++ [u]).length, h2, b!"parse_variable_after_name" :: s.scope⟩) hn2' _) ?_
    rw [← hn0]
    by_cases hq : q = 0
    · rw [if_pos hq] at hh4
      subst hh4
      simp only [hq, ne_eq, not_true_eq_false, if_false]
      refine bind_run (upd_run hvp) ?_
      rw [h4p, pureP, hh5]
    · rw [if_neg hq] at hh4
      simp only [hq, ne_eq, not_true_eq_false, not_false_eq_true, if_true, if_false]
      have hc2 : (grown h2 n0).cell ty = h2.cell ty := by simp [grown, htp]
      refine bind_run (upd_run (s := ⟨s.idx + (ts ++ vs' ++ [u]).length, grown h2 n0, b!"parse_variable_after_name" :: s.scope⟩) ⟨htv.1, Nat.lt_succ_of_lt htv.2⟩) ?_
      simp only [hc2]
      rw [← hh4]
      refine bind_run (upd_run hvp) ?_
      rw [h4p, pureP, hh5]
  · exact (agree_kept (Nat.succ_pos _) (by omega) hk2).trans (hag 1 a (Nat.succ_pos _) (by omega) (.inr hlo))
  · intro E y f k g1 g2 g3 g4
    rw [hcell] at g3
    rw [r7]
    exact variable_says h0 g1.live g2 g3 g4 hne (f1.agree g1 (Nat.le_refl _) (Nat.le_refl _)) (f2.agree g1) htn
      (BoundsIn.agree g1 (Nat.le_refl _) (Nat.le_refl _) f3) (f4.agree g1 (Nat.le_refl _) (Nat.le_refl _))
      (fun hb => r8.elim id fun hh => absurd (hh _ _ _ _ _ _ f4) hb)

theorem IdTok.ends {c : Bytes} (h : IdTok c t x) : Ends c t := by
  have h1 := h.1.type
  have h2 := h.1.flags
  refine ⟨h.fmt, by unfold has; rw [h2]; rfl, by rw [h1]; decide, by rw [h1]; decide, by rw [h1]; rfl, by rw [h1]; decide, fun hh => by rw [h1] at hh; cases hh⟩

theorem type_run {l : List Specifier} {name : Bytes} (hT : TypeToks e.mem l name ts)
    (h : Here e s (ts ++ t :: more) rest) (ht : Ends e.mem t) (hn : 0 < s.heap.next) :
    ∃ h', type false e s = .ok (s.heap.next, ⟨s.idx + ts.length, h', s.scope⟩) ∧ Kept s.heap h' ∧ s.heap.next < h'.next ∧
      IsType s.heap.next h'.next h' s.heap.next name l 0 := by
  obtain ⟨h', r1, r2⟩ := typeWith_run (params := Parse.params) (tmpl := false) hT h ht hn
  exact ⟨h', bind_run r1 rfl, r2⟩

/-- The first token of a type. -/
theorem TypeToks.first {c : Bytes} {l : List Specifier} {name : Bytes} (hT : TypeToks c l name ts) :
    ∃ f tl, ts = f :: tl ∧ isFmt f = false ∧ (f.flags = 0 ∨ TokIs c f .Spec_Const 256 b!"const") ∧ name ≠ [] := by
  obtain ⟨hp1, hp2, hns, ⟨w, g, hw, -, -, hname⟩, -, -, -⟩ := hT
  obtain ⟨f, tl, h1, h2, h3⟩ := hns.first
  have hn : name ≠ [] := by
    rw [hname]
    intro hh
    obtain ⟨⟨c, hc, -⟩, -⟩ := hw.ends
    rw [List.append_eq_nil_iff] at hh
    rw [hh.1] at hc
    cases hc
  cases hp1 with
  | nil => exact ⟨f, _, by rw [h1]; rfl, h2, .inl h3, hn⟩
  | @cons x l t ts hx _ =>
    refine ⟨t, _, rfl, specTok_fmt x hx.type, .inr ?_, hn⟩
    rw [hp2 x List.mem_cons_self] at hx
    exact hx

theorem TypeToks.stops {c : Bytes} {l : List Specifier} {name : Bytes} (hT : TypeToks c l name ts) {ok : Specifier → Option (Option Bool)} (hok : ok .Const = some none) :
    ∃ f tl, ts = f :: tl ∧ StopsAt c ok f ∧ f.type ≠ .Module_Export ∧ has f Lex.fAttribute = false := by
  obtain ⟨hp1, hp2, hns, -, -, -, -⟩ := hT
  obtain ⟨f, tl, h1, h2, h3⟩ := hns.first
  cases hp1 with
  | nil =>
    refine ⟨f, _, by rw [h1]; rfl, ⟨h2, .inl (by unfold has; rw [h3]; rfl)⟩, ?_, by unfold has; rw [h3]; rfl⟩
    cases hns with
    | ident hq =>
      obtain ⟨f', l', y, hfl, hf⟩ := hq.first
      rw [hfl] at h1
      obtain ⟨rfl, rfl⟩ := List.cons.inj h1
      rw [hf.1.type]; decide
    | native hf =>
      obtain ⟨rfl, rfl⟩ := List.cons.inj h1
      have := hf _ List.mem_cons_self
      intro hh
      rw [hh] at this
      revert this
      decide
  | @cons x l t ts hx _ =>
    rw [hp2 x List.mem_cons_self] at hx
    refine ⟨t, _, rfl, ⟨specTok_fmt _ hx.type, .inr ⟨_, hx, hok⟩⟩, by rw [hx.type]; decide, by unfold has; rw [hx.flags]; rfl⟩

theorem varSpecs_ok {l : List Specifier} (h : ∀ x ∈ l, x ∈ varSpecs) : ∀ x ∈ l, orConst variableSpecs x = some (some true) := by
  intro x hx
  have := h x hx
  simp only [varSpecs, List.mem_cons, List.not_mem_nil, or_false] at this
  rcases this with rfl | rfl | rfl | rfl | rfl | rfl | rfl | rfl | rfl | rfl | rfl <;> rfl

/-- The first of the tokens: specifiers and what follows. -/
theorem SpecToks.first {c : Bytes} {l : List Specifier} {ts : List Tok} (h : SpecToks c l ts) {f : Tok} {tl : List Tok} (hf : isFmt f = false) (h0 : has f Lex.fAttribute = false)
    (h1 : f.type ≠ .Module_Export) : ∃ g l', ts ++ f :: tl = g :: l' ∧ isFmt g = false ∧ has g Lex.fAttribute = false ∧ g.type ≠ .Module_Export := by
  cases h with
  | nil => exact ⟨f, tl, rfl, hf, h0, h1⟩
  | @cons x l t ts hx _ =>
    refine ⟨t, _, rfl, specTok_fmt x hx.type, ?_, ?_⟩
    · unfold has
      rw [hx.flags]
      cases x <;> decide
    · rw [hx.type]
      cases x <;> decide

theorem parseVariable_run (hv : VarToks e.mem x ts) (hm : ∀ u, ts.getLast? = some u → NoComment u more) (hn : 0 < s.heap.next) (h : Here e s (ts ++ more) rest) :
    Gives parseVariable e s ts.length x := by
  obtain ⟨hs1, hs2, hs3, hT, hN, hL, hu⟩ := hv
  rename_i specs ss tspecs tname ts name ns tail vs u
  have hm := hm u (by simp)
  have h0 := h.heap s.heap (b!"parser_parse_variable" :: s.scope)
  have h0 : Here e ⟨s.idx, s.heap, b!"parser_parse_variable" :: s.scope⟩ (ss ++ (ts ++ (ns ++ (vs ++ u :: more)))) rest := by simpa using h0
  obtain ⟨f, tl, hf1, hf2, hf3, hf4⟩ := hT.stops (ok := orConst variableSpecs) rfl
  obtain ⟨-, -, -, -, -, htn⟩ := hT.first
  obtain ⟨g, gl, hg1, hg2, hg3, hg4⟩ := hs1.first (f := f) (tl := tl ++ (ns ++ (vs ++ u :: more))) hf2.1 hf4 hf3
  have h0f : Here e ⟨s.idx, s.heap, b!"parser_parse_variable" :: s.scope⟩ (ss ++ f :: (tl ++ (ns ++ (vs ++ u :: more)))) rest := by
    rw [hf1] at h0; simpa using h0
  have h0g := h0f
  rw [hg1] at h0g
  have r1 := specifiersLoop_run hs1 (varSpecs_ok hs2) h0f hf2 (found := []) (by rw [List.length_nil]; omega)
  rw [List.nil_append] at r1
  obtain ⟨sq, h1, r2, k2, n2, q2⟩ := specsOf_run (e := e) (s := (St.mk s.idx s.heap (b!"parser_parse_variable" :: s.scope)).adv ss.length) (l := specs) hn hs3
  have hh1 : Here e ⟨s.idx + ss.length, h1, b!"parser_parse_variable" :: s.scope⟩ (ts ++ (ns ++ (vs ++ u :: more))) rest := h0.advN.at rfl
  obtain ⟨i, il, y, hi1, hi2⟩ := hN.first
  have hh1' := hh1
  rw [hi1, List.cons_append] at hh1'
  have n2' : s.heap.next ≤ h1.next := n2
  obtain ⟨h2, r3, k3, n3, q3⟩ := type_run hT hh1' hi2.ends (Nat.lt_of_lt_of_le hn n2')
  have hh2 : Here e ⟨s.idx + ss.length + ts.length, h2, b!"parser_parse_variable" :: s.scope⟩ (ns ++ (vs ++ u :: more)) rest := hh1.advN.at rfl
  obtain ⟨t, tl', ht1, ht2⟩ := hL.first (more := more) hu
  have hh2' := hh2
  rw [ht1] at hh2'
  obtain ⟨i', il', hi3, hi4, r4⟩ := identifier_run hN hh2' ht2
  have hh3 : Here e ⟨s.idx + ss.length + ts.length + ns.length, h2, b!"parser_parse_variable" :: s.scope⟩ (vs ++ u :: more) rest := hh2.advN.at rfl
  have hne : name ≠ [] := by cases hN; assumption
  obtain ⟨p, h3, r5, r6, r7, r8, r9, r10⟩ := variableAfterName_run (a := s.heap.next) (s := ⟨s.idx + ss.length + ts.length + ns.length, h2, b!"parser_parse_variable" :: s.scope⟩)
    (specs := specs) (tspecs := tspecs) (tname := tname) (sq := sq) (ty := h1.next) hn (q2.agree (agree_kept hn (Nat.le_refl _) k3) (Nat.le_refl _) (Nat.le_refl _))
    ⟨Nat.le_trans n2' q3.lo, q3.hi, q3.cell⟩ htn hne hL hu hm hh3
  refine ⟨p, h3, inScope_run (sc := b!"parser_parse_variable" :: s.scope) ?_ rfl, ?_, r7, r8, r9, r10⟩
  · refine bind_run (h0g.exportFlag hg2 hg4) ?_
    refine bind_run (h0g.attributes hg2 hg3) ?_
    refine bind_run r1 ?_
    refine bind_run r2 ?_
    refine bind_run r3 ?_
    unfold identText
    refine bind_run (bind_run r4 (pureP _ _ _)) ?_
    refine bind_run (spanBytes hi4) ?_
    rw [r5]
    simp [Nat.add_assoc]
  · exact (agree_kept (Nat.succ_pos _) (Nat.le_refl _) (k2.trans k3)).trans r6

end Verif.Parse
