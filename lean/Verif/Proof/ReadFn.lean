import Verif.Proof.ReadParams
/-!
# Running the parser on the tokens of a function
-/
namespace Verif.Parse
open Verif.Lex (Tok)
open Verif.Ast P
open Verif.Ser hiding Env boundsText isNext

variable {e : Env} {s : St} {t u : Tok} {ts vs more rest : List Tok} {x name : Bytes} {a b : Nat}

/-! ## Specifiers behind the parameters -/

/-- All nodes of `h` but `q` are still there. -/
def AllBut (q : Nat) (h g : Heap) : Prop := h.next ≤ g.next ∧ ∀ p, h.Valid p → p ≠ q → g.cell p = h.cell p

theorem AllBut.agree {q : Nat} {h g : Heap} (hb : AllBut q h g) (h0 : 0 < a) (h1 : b ≤ h.next) (h2 : q < a ∨ b ≤ q) : Agree a b h g := fun p hp1 hp2 =>
  ⟨⟨by omega, by have := hb.1; omega⟩, hb.2 p ⟨by omega, by omega⟩ (by omega)⟩

theorem addSpec_run {q : Nat} {l : List Specifier} (h0 : 0 < a) (ha : a ≤ s.heap.next) (hS : SpecsIn a s.heap.next s.heap q l) (hl : l.length < 14) (sp : Specifier) :
    ∃ q' h', addSpec q sp e s = .ok (q', ⟨s.idx, h', s.scope⟩) ∧ SpecsIn a h'.next h' q' (l ++ [sp]) ∧ AllBut q s.heap h' ∧ (q ≠ 0 → q' = q) ∧
      (q = 0 → q' = s.heap.next) := by
  have hn : 0 < s.heap.next := by omega
  by_cases hq : q = 0
  · have hl0 : l = [] := by
      unfold SpecsIn at hS
      split at hS
      · assumption
      · omega
    subst hl0
    obtain ⟨h', r1, r2, -, r3⟩ := C29_def_specifier e.cfg hn sp
    have hv := r2.valid.2
    refine ⟨s.heap.next, h', ?_, ?_, ⟨by omega, fun p hp _ => (r3 p hp).2⟩, fun hh => absurd hq hh, fun _ => rfl⟩
    · unfold addSpec
      rw [iteP, if_pos hq]
      show (defSpecifier e.cfg s.heap sp).bind _ = _
      rw [r1]
      rfl
    · unfold SpecsIn
      rw [if_neg (by simp)]
      exact ⟨ha, hv, r2⟩
  · have hS' : a ≤ q ∧ q < s.heap.next ∧ IsSpecs s.heap q l := by
      unfold SpecsIn at hS
      split at hS
      · exact absurd hS hq
      · exact hS
    obtain ⟨h', r1, r2, r3, r4⟩ := C20_append e.cfg.fatal hS'.2.2 hl sp
    refine ⟨q, h', ?_, ?_, ⟨by omega, fun p _ hp => r4 p hp⟩, fun _ => rfl, fun hh => absurd hh hq⟩
    · unfold addSpec
      rw [iteP, if_neg hq]
      refine bind_run rfl ?_
      refine bind_run (a := ()) (s' := ⟨s.idx, h', s.scope⟩) ?_ rfl
      show ((specifiersAppend e.cfg.fatal s.heap q sp).bind fun r => Res.ok r.2).bind _ = _
      rw [r1]
      rfl
    · unfold SpecsIn
      rw [if_neg (by simp)]
      exact ⟨hS'.1, by omega, r2⟩

/-- The specifiers behind the parameters are added to those in front. -/
theorem fnSuffix_run {q : Nat} {l trail : List Specifier} (hT : SpecToks e.mem trail ts) (hm : ∀ s ∈ trail, Lex.lookupMacro e.ms (specToStr s) = none)
    (hf : isFmt t = false) (hfs : has t Lex.fSpecifier = false) (h0 : 0 < a) (ha : a ≤ s.heap.next) (hS : SpecsIn a s.heap.next s.heap q l)
    (hl : l.length + trail.length ≤ 14) (h : Here e s (ts ++ t :: more) rest) :
    ∃ q' h', fnSuffix q e s = .ok ((q', 0), ⟨s.idx + ts.length, h', s.scope⟩) ∧ SpecsIn a h'.next h' q' (l ++ trail) ∧ AllBut q s.heap h' := by
  have key : ∀ {trail : List Specifier} {ts : List Tok}, SpecToks e.mem trail ts → (∀ s ∈ trail, Lex.lookupMacro e.ms (specToStr s) = none) →
      ∀ {s : St} {q : Nat} {l : List Specifier}, a ≤ s.heap.next → SpecsIn a s.heap.next s.heap q l → l.length + trail.length ≤ 14 →
      Here e s (ts ++ t :: more) rest →
      ∃ q' h', SpecsIn a h'.next h' q' (l ++ trail) ∧ AllBut q s.heap h' ∧ Turns (fun (x : Nat × Nat) => do
        if ← leftAnd (has · Lex.fSpecifier) then
          let t ← cur
          let b ← bytes (.of t)
          if (← macroOf b).isSome then return (true, (x.1, ← simplePreprocess .Preprocess_Macro_Expr))
          else
            let specs ← addSpec x.1 (strToSpecifier b)
            eatAny
            return (true, (specs, x.2))
        else return (false, x)) e (ts.length + 1) (q, 0) s (q', 0) ⟨s.idx + ts.length, h', s.scope⟩ := by
    intro trail ts hT
    induction hT with
    | nil =>
      intro _ s q l _ hS _ h
      refine ⟨q, s.heap, by rwa [List.append_nil], ⟨Nat.le_refl _, fun _ _ _ => rfl⟩, .stop ?_⟩
      rw [List.nil_append] at h
      simp only [bindP, h.leftAnd hf, Res.ok_bind, iteP, hfs, Bool.false_eq_true, if_false, pureP, List.length_nil, Nat.add_zero]
    | @cons y tr u us hu _ ih =>
      intro hm s q l ha hS hl h
      have hux := specTok_fmt y hu.type
      rw [List.cons_append] at h
      rw [List.length_cons] at hl
      obtain ⟨q1, h1, r1, r2, r3, r4, r5⟩ := addSpec_run (e := e) h0 ha hS (by omega) y
      have hh1 : Here e ⟨s.idx, h1, s.scope⟩ (u :: (us ++ t :: more)) rest := h.heap _ _
      obtain ⟨q2, h2, i1, i2, i3⟩ := ih (fun z hz => hm z (List.mem_cons_of_mem _ hz)) (s := ⟨s.idx + 1, h1, s.scope⟩) (q := q1) (l := l ++ [y])
        (Nat.le_trans ha r3.1) r2 (by rw [List.length_append, List.length_singleton]; omega) (hh1.tail.at rfl)
      refine ⟨q2, h2, by rw [List.append_assoc] at i1; exact i1, ?_, ?_⟩
      · refine ⟨Nat.le_trans r3.1 i2.1, fun p hp hpq => ?_⟩
        have hp1 : h1.Valid p := ⟨hp.1, Nat.lt_of_lt_of_le hp.2 r3.1⟩
        rw [i2.2 p hp1 ?_, r3.2 p hp hpq]
        by_cases hq : q = 0
        · rw [r5 hq]; exact Nat.ne_of_lt hp.2
        · rw [r4 hq]; exact hpq
      · refine .go (y := (q1, 0)) (s' := ⟨s.idx + 1, h1, s.scope⟩) ?_ ?_
        · refine bind_run (h.leftAnd hux _) ?_
          rw [specTok_has y hu.flags]
          simp only [if_true]
          refine bind_run (h.cur hux) ?_
          refine bind_run hu.bytesP ?_
          refine bind_run (a := none) (s' := s) ?_ ?_
          · unfold macroOf
            rw [hm y List.mem_cons_self]
          · simp only [Option.isSome_none, Bool.false_eq_true, if_false, C25_specifier_spellings]
            refine bind_run r1 ?_
            refine bind_run (a := ()) (s' := ⟨s.idx + 1, h1, s.scope⟩) ?_ rfl
            unfold eatAny
            refine bind_run (hh1.cur hux) ?_
            exact hh1.eat
        · have : s.idx + 1 + us.length = s.idx + (u :: us).length := by rw [List.length_cons]; omega
          rw [← this]
          exact i3
  obtain ⟨q', h', k1, k2, k3⟩ := key hT hm ha hS hl h
  refine ⟨q', h', k3.loop ?_, k1, k2⟩
  have := h.length_le
  simp only [List.length_append, List.length_cons] at this
  omega

/-! ## The body -/

theorem IsBody.agree {h g : Heap} {r : Nat} {l : List Nat} (hb : IsBody h r l) (hg : ∀ q, q = r ∨ q ∈ l → g.Valid q ∧ g.cell q = h.cell q) (hn : 0 < g.next) : IsBody g r l := by
  have hr := hg r (.inl rfl)
  have key : ∀ (l' : List Nat) (p : Nat), (∀ q ∈ l', g.Valid q ∧ g.cell q = h.cell q) → Chain h p l' → Chain g p l' := by
    intro l'
    induction l' with
    | nil => intro _ _ _; trivial
    | cons q l' ih =>
      rintro p hq ⟨rfl, -, h3⟩
      have := hq p List.mem_cons_self
      exact ⟨rfl, this.1, by rw [this.2]; exact ih _ (fun q' hq' => hq q' (List.mem_cons_of_mem _ hq')) h3⟩
  refine ⟨hn, hr.1, by rw [hr.2]; exact hb.count, ?_, fun hl => by rw [hr.2]; exact hb.first hl, fun x hx => by rw [hr.2]; exact hb.last x hx,
    fun x hx => by rw [(hg x (.inr hx)).2]; exact hb.parents x hx, hb.self, hb.nodup⟩
  rw [hr.2]
  exact key l _ (fun q hq => hg q (.inr hq)) hb.chain

theorem body_loop {vs : List Tok} (hv : Balanced vs) (hu : u.type = .BraceCurly_Close) (h : Here e s (vs ++ u :: more) rest) :
    loop (fun (level : Int) => do
      if ← Parse.left then
        let t ← curN
        if t.type = .BraceCurly_Close ∧ ¬ level > 0 then return (false, level)
        else
          eat t.type
          return (true, if t.type = .BraceCurly_Open then level + 1 else if t.type = .BraceCurly_Close then level - 1 else level)
      else return (false, level)) 0 e s = .ok (0, s.adv vs.length) := by
  have hfold := depth_foldl [.BraceCurly_Open] [.BraceCurly_Close]
  have := loop_toks (e := e) (s := s) (rest := rest) (step := fun (level : Int) => do
      if ← Parse.left then
        let t ← curN
        if t.type = .BraceCurly_Close ∧ ¬ level > 0 then return (false, level)
        else
          eat t.type
          return (true, if t.type = .BraceCurly_Open then level + 1 else if t.type = .BraceCurly_Close then level - 1 else level)
      else return (false, level)) (nx := fun n t => if t.type ∈ [TokType.BraceCurly_Open] then n + 1 else if t.type ∈ [TokType.BraceCurly_Close] then n - 1 else n) (x0 := 0)
      (vs := vs) (tail := u :: more) ?_ ?_ h
  · rw [hfold, hv.2] at this
    exact this
  · intro pre t post s hp h
    rw [hfold]
    refine bind_run h.left ?_
    simp only [if_true]
    refine bind_run h.curN ?_
    have hd : ¬ (t.type = .BraceCurly_Close ∧ ¬ depth [.BraceCurly_Open] [.BraceCurly_Close] pre 0 > 0) := fun hh => hh.2 (hv.1 pre t post hp hh.1)
    simp only [hd, if_false]
    refine bind_run h.eat ?_
    simp only [List.mem_singleton]
    rfl
  · intro s h
    rw [hfold, hv.2]
    refine bind_run h.left ?_
    simp only [if_true]
    refine bind_run h.curN ?_
    simp only [hu, gt_iff_lt, Int.lt_irrefl, not_false_eq_true, and_self, if_true]
    rfl

/-- What a list with one text in it prints as. -/
theorem one_text {E : Ser.Env} {p q : Nat} (hb : IsBody E.h p [q]) (hp : plainBody (E.h.cell p).type = true) (hq : E.h.Valid q) (ht : (E.h.cell q).type = .Execution)
    (hx : (E.h.cell q).content = x) : Prints E .body p x := by
  have h1 : Prints E .code q x := by
    subst hx
    exact C48_text (.inr (.inl ⟨hq, rfl, ht⟩))
  have := (C34_body (ts := [x]) hb hp ⟨h1, trivial⟩).1
  simpa using this

/-- The body of a function is kept as text. -/
theorem functionBody_run (hB : BodyToks e.mem x ts) (hn : 0 < s.heap.next) (h : Here e s (ts ++ more) rest) :
    ∃ p h', functionBody e s = .ok (p, ⟨s.idx + ts.length, h', s.scope⟩) ∧ Kept s.heap h' ∧ s.heap.next ≤ h'.next ∧
      Stands .body s.heap.next h'.next h' p x := by
  have h0 := h.heap s.heap (b!"parse_function_body" :: s.scope)
  obtain ⟨g, hg⟩ : ∃ g, g = grown s.heap { type := .Function_Body } := ⟨_, rfl⟩
  have hgn : g.next = s.heap.next + 1 := by rw [hg]; rfl
  have hgk : Kept s.heap g := by rw [hg]; exact kept_grown _ _
  have hgb : IsBody g s.heap.next [] := by rw [hg]; exact isBody_new hn _
  have hgt : (g.cell s.heap.next).type = .Function_Body := by rw [hg]; simp [grown]
  cases hB with
  | @empty o z ho hz hoz =>
    rw [List.cons_append, List.cons_append, List.nil_append] at h0
    have heo := h0.eat
    rw [ho.type] at heo
    have h1 : Here e ⟨s.idx + 1, g, b!"parse_function_body" :: s.scope⟩ (z :: more) rest := (h0.tail.heap _ _).at rfl
    have hez := h1.eat
    rw [hz.type] at hez
    refine ⟨s.heap.next, g, inScope_run (sc := b!"parse_function_body" :: s.scope) ?_ rfl, hgk, by omega, Nat.le_refl _, by omega, ?_⟩
    · refine bind_run heo ?_
      refine bind_run (make_run (s := ⟨s.idx + 1, s.heap, b!"parse_function_body" :: s.scope⟩) hn _) ?_
      rw [← hg]
      refine bind_run h1.curN ?_
      refine bind_run (body_loop (vs := []) ⟨(fun pre t post hh => by cases pre <;> cases hh), rfl⟩ hz.type h1) ?_
      refine bind_run (a := span z.start o) (s' := ⟨s.idx + 1, g, b!"parse_function_body" :: s.scope⟩) ?_ ?_
      · unfold upToPrev
        exact bind_run (h0.prev (pre := []) rfl) rfl
      · have : ¬ (span z.start o).len > 0 := by
          unfold span
          simp only [ho.len]
          show ¬ ((o.start + ((1 : Nat) : Int) : Int) - z.start > 0)
          omega
        simp only [this, if_false]
        refine bind_run hez ?_
        rfl
    · intro E hE hf
      have hb : IsBody E.h s.heap.next [] := IsBody.agree hgb (fun q hq => by
        rcases hq with rfl | hq
        · exact hE _ (Nat.le_refl _) (by omega)
        · cases hq) (by have := (hE s.heap.next (Nat.le_refl _) (by omega)).1.2; omega)
      exact (C34_body (ts := []) hb (by rw [(hE s.heap.next (Nat.le_refl _) (by omega)).2, hgt]; rfl) trivial).1
  | @text o vs z x ho hv hx hne hz =>
    have h0 : Here e ⟨s.idx, s.heap, b!"parse_function_body" :: s.scope⟩ (o :: (vs ++ z :: more)) rest := by simpa using h0
    have heo := h0.eat
    rw [ho.type] at heo
    have h1 : Here e ⟨s.idx + 1, g, b!"parse_function_body" :: s.scope⟩ (vs ++ z :: more) rest := (h0.tail.heap _ _).at rfl
    obtain ⟨f, l, hf, -, -, hsl⟩ := hx.text
    obtain ⟨vl, rfl⟩ : ∃ vl, vs = f :: vl := by
      cases vs with
      | nil => cases hf
      | cons g vl => cases hf; exact ⟨vl, rfl⟩
    obtain ⟨g2, hg2⟩ : ∃ g2, g2 = grown g { type := .Execution, content := x } := ⟨_, rfl⟩
    have hg2n : g2.next = s.heap.next + 2 := by rw [hg2]; show g.next + 1 = _; omega
    have hg2k : Kept g g2 := by rw [hg2]; exact kept_grown _ _
    have hx2 : g2.cell g.next = { type := .Execution, content := x } := by rw [hg2]; simp [grown]
    have hvx : g2.Valid g.next := ⟨by omega, by omega⟩
    have hb2 : IsBody g2 s.heap.next [] := IsBody.agree hgb (fun q hq => by
        rcases hq with rfl | hq
        · exact hg2k _ ⟨hn, by omega⟩
        · cases hq) (by omega)
    obtain ⟨g3, q, r1, r2, r3⟩ := append_spec hb2 hvx (by omega)
    have hq : q = g.next := by rw [r3.fresh, hx2]; rfl
    subst hq
    rw [List.nil_append] at r2
    have hty : (g2.cell s.heap.next).type = .Function_Body := by rw [(hg2k _ ⟨hn, by omega⟩).2, hgt]
    have hp3 : (g3.cell s.heap.next).type = (g2.cell s.heap.next).type := by
      have := congrArg Node.type r3.bodyPayload.1
      exact this
    have hn3 : g2.next ≤ g3.next := r3.grow
    have hcx : (g3.cell g.next).type = .Execution ∧ (g3.cell g.next).content = x := by
      have := r3.node
      rw [hx2] at this
      exact ⟨payload_type this, by have := congrArg Node.content this; exact this⟩
    have hk3 : Kept s.heap g3 := fun p hp => by
      have hv2 := hg2k p (hgk p hp).1
      refine ⟨⟨hp.1, Nat.lt_of_lt_of_le hv2.1.2 hn3⟩, ?_⟩
      rw [r3.frame p hv2.1 (by have := hp.2; omega) (by have := hp.2; omega), hv2.2, (hgk p hp).2]
      simp
    have h3 : Here e ⟨s.idx + 1 + (f :: vl).length, g3, b!"parse_function_body" :: s.scope⟩ (z :: more) rest := (h1.advN.heap _ _).at rfl
    have hez := h3.eat
    rw [hz.type] at hez
    refine ⟨s.heap.next, g3, inScope_run (sc := b!"parse_function_body" :: s.scope) ?_ rfl, hk3, by omega, Nat.le_refl _, by omega, ?_⟩
    · refine bind_run heo ?_
      refine bind_run (make_run (s := ⟨s.idx + 1, s.heap, b!"parse_function_body" :: s.scope⟩) hn _) ?_
      rw [← hg]
      refine bind_run h1.curN ?_
      refine bind_run (body_loop hv hz.type h1) ?_
      refine bind_run (upToPrev_run (s := ⟨s.idx + 1, g, b!"parse_function_body" :: s.scope⟩) (ts := vl) h1 hx rfl) ?_
      have : (x.length : Int) > 0 := by
        cases x with
        | nil => exact absurd rfl hne
        | cons => simp only [List.length_cons]; omega
      simp only [this, if_true]
      refine bind_run (spanBytes hx) ?_
      refine bind_run (a := g.next) (s' := ⟨s.idx + 1 + (f :: vl).length, g2, b!"parse_function_body" :: s.scope⟩) ?_ ?_
      · show (defExecution e.cfg g x).bind _ = _
        unfold defExecution guardName
        rw [if_neg hne, finish_eq (by omega), hg2]
        rfl
      refine bind_run (a := ()) (s' := ⟨s.idx + 1 + (f :: vl).length, g3, b!"parse_function_body" :: s.scope⟩) ?_ ?_
      · show (bodyAppend 1 g2 s.heap.next g.next).bind _ = _
        rw [bodyAppend_plain (Nat.ne_of_gt hn) hvx (by rw [hx2]; rfl), r1]
        rfl
      refine bind_run hez ?_
      simp [St.adv, Nat.add_assoc, pureP]
      omega
    · intro E hE hf
      have e1 := hE s.heap.next (Nat.le_refl _) (by omega)
      have e2 := hE g.next (by omega) (by omega)
      refine one_text (q := g.next) (IsBody.agree r2 (fun q hq => by
        rcases hq with rfl | hq
        · exact e1
        · rw [List.mem_singleton] at hq
          subst hq
          exact e2) (by have := e1.1.2; omega)) ?_ e2.1 (by rw [e2.2]; exact hcx.1) (by rw [e2.2]; exact hcx.2)
      rw [e1.2, hp3, hty]
      rfl

/-! ## The end -/

theorem endStmt_run (hu : TokIs e.mem u .Statement_End 512 b!";") (hq : Quiet u (more ++ rest)) (h : Here e s (u :: more) rest) : endStmt e s = .ok (0, s.adv 1) := by
  have heat := h.eat
  rw [hu.type] at heat
  obtain ⟨t, ht, hn⟩ := hq
  unfold endStmt
  refine bind_run (h.cur (isFmt_of_type hu.type (by decide) (by decide))) ?_
  refine bind_run heat ?_
  unfold inlineCmt
  refine bind_run (a := t) (s' := s.adv 1) ?_ ?_
  · unfold curN
    have hc := h.tail.cells
    have : e.cells[(s.adv 1).idx]? = some t := by
      rw [← Nat.add_zero (s.adv 1).idx, ← List.getElem?_drop, hc, ← List.head?_eq_getElem?]
      exact ht
    rw [this]
    rfl
  · simp only [hn, if_false]
    rfl

/-- What ends a function: the node of its body, or none. -/
def EndsAs (a b : Nat) (h : Heap) (p : Nat) (z : Bytes) : Prop :=
  (p = 0 ∧ z = b!";\n") ∨ ∃ x, z = b!"\n{\n" ++ x ++ b!"\n}\n" ∧ Stands .body a b h p x

theorem fnEnd_first {c z : Bytes} (hE : FnEnd c z ts) : ∃ t tl, ts = t :: tl ∧ isFmt t = false ∧ has t Lex.fSpecifier = false := by
  have key : ∀ {t : Tok} {ty : TokType} {fl : Nat} {y : Bytes}, TokIs c t ty fl y → ty ≠ .NewLine → ty ≠ .Comment → fl &&& Lex.fSpecifier ≠ Lex.fSpecifier →
      isFmt t = false ∧ has t Lex.fSpecifier = false := by
    intro t ty fl y h h1 h2 h3
    refine ⟨isFmt_of_type h.type h1 h2, ?_⟩
    unfold has
    rw [h.flags]
    simpa using h3
  cases hE with
  | decl hu => exact ⟨_, _, rfl, key hu (by decide) (by decide) (by decide)⟩
  | body hb =>
    cases hb with
    | empty ho => exact ⟨_, _, rfl, key ho (by decide) (by decide) (by decide)⟩
    | text ho => exact ⟨_, _, rfl, key ho (by decide) (by decide) (by decide)⟩

/-! ## Printing -/

theorem leading_append {l r : List Specifier} (h1 : ∀ x ∈ l, specIsTrailing x = false) (h2 : ∀ x ∈ r, specIsTrailing x = true) :
    Ser.leading (l ++ r) = l ∧ Ser.trailing (l ++ r) = r := by
  unfold Ser.leading Ser.trailing
  rw [List.filter_append, List.filter_append, List.filter_eq_self.2 (fun x hx => by rw [h1 x hx]; rfl), List.filter_eq_nil_iff.2 (fun x hx => by rw [h2 x hx]; simp),
    List.filter_eq_nil_iff.2 (fun x hx => by rw [h1 x hx]; simp), List.filter_eq_self.2 (fun x hx => h2 x hx), List.append_nil, List.nil_append]
  exact ⟨rfl, rfl⟩

/-- A function as it is printed. -/
theorem function_says {E : Ser.Env} {p sq typ ps body par f k : Nat} {lead trail : List Specifier} {rt px z : Bytes} {h : Heap} (h0 : 0 < a)
    (ha : Agree a b h E.h) (hv : E.h.Valid p)
    (hp : E.h.cell p = { type := if body = 0 then .Function_Fwd else .Function, name := name, body := body, specs := sq, typ := typ, params := ps,
                         parent := par, front := f, back := k })
    (hne : name ≠ []) (hs : SpecsIn a b h sq (lead ++ trail)) (hs1 : ∀ x ∈ lead, specIsTrailing x = false) (hs2 : ∀ x ∈ trail, specIsTrailing x = true)
    (hs3 : ∀ x ∈ lead ++ trail, x ≠ .Pure ∧ x ≠ .Delete)
    (ht : Stands .typename a b h typ rt) (hps : (ps = 0 ∧ px = []) ∨ Stands .params a b h ps px) (hb : EndsAs a b h body z) :
    Says E .code p (specWords lead ++ (if lead = [] then [] else b!"\n") ++ rt ++ b!" " ++ name ++ b!"(" ++ px ++ b!")" ++ specWords trail ++ z) := by
  intro hf
  have hf' : Fits rt ∧ Fits px ∧ Fits z := by
    simp only [List.append_assoc] at hf
    have h1 := (Fits.append (Fits.append hf).2).2
    have h2 := (Fits.append (Fits.append (Fits.append h1).2).2).2
    have h3 := (Fits.append h2).2
    have h4 := (Fits.append (Fits.append h3).2).2
    exact ⟨(Fits.append h1).1, (Fits.append h3).1, (Fits.append h4).2⟩
  obtain ⟨hl1, hl2⟩ := leading_append hs1 hs2
  have htp : Prints E .typename typ rt := ht.says E ha hf'.1
  have hpp : ps ≠ 0 → Prints E .params ps px := fun hh => by
    rcases hps with ⟨h1, -⟩ | h1
    · exact absurd h1 hh
    · exact h1.says E ha hf'.2.1
  have hsl := (SpecsIn.slot (E := E) (hs.agree ha (Nat.le_refl _) (Nat.le_refl _)) h0).1
  have hnm : nameText E p = name := by rw [nameText_of (by rw [hp]; exact hne), hp]
  have htz : typ ≠ 0 := by have := ht.lo; omega
  have hpx : optText ps px = px := by
    unfold optText
    split
    · next hz =>
      rcases hps with ⟨-, h1⟩ | h1
      · exact h1.symm
      · have := h1.lo; omega
    · rfl
  have hsig : sigText E p (E.h.cell p) rt px = rt ++ b!" " ++ name ++ b!"(" ++ px ++ b!")" := by
    have h1 : (E.h.cell p).typ = typ := by rw [hp]
    have h2 : (E.h.cell p).params = ps := by rw [hp]
    unfold sigText
    rw [hnm, h1, h2, hpx]
    simp [optText, htz]
  have hbr : breakText (E.h.cell p) lead = if lead = [] then [] else b!"\n" := by
    have h1 : (E.h.cell p).attributes = 0 := by rw [hp]
    unfold breakText ifText
    rw [h1]
    by_cases hl : lead = [] <;> simp [hl]
  rcases hb with ⟨hb, rfl⟩ | ⟨x, rfl, hb⟩
  · subst hb
    obtain ⟨hq1, hq2⟩ := C46_function_fwd_plain (l := lead ++ trail) (fun hh => (hs3 _ hh).1 rfl) (fun hh => (hs3 _ hh).2 rfl)
    refine (C46_function_fwd (e := E) (n := E.h.cell p) (l := lead ++ trail) (t := []) (rt := rt) (pt := px) (st := []) ⟨hv, rfl, by rw [hp]; rfl⟩
      (by rw [hp]; exact fun hh => absurd rfl hh) (by rw [hp]; exact fun hh => absurd rfl hh) (by rw [hp]; exact hsl) (by rw [hp]; exact fun _ => htp)
      (by rw [hp]; exact hpp) (by rw [hp]; exact fun hh => absurd rfl hh) (by rw [hp]; exact fun hh => absurd rfl hh)).print' ?_ hf
    have h3 : exportText (E.h.cell p) = [] := by rw [hp]; rfl
    have h4 : cmtText E (E.h.cell p) b!";  " b!"" b!";\n" = b!";\n" := by rw [hp]; rfl
    have h6 : attrText E (E.h.cell p) = [] := by rw [hp]; rfl
    have h7 : (E.h.cell p).suffix = 0 := by rw [hp]
    have h8 : (E.h.cell p).body = 0 := by rw [hp]
    rw [hq1, hq2, hl1, hl2, hsig, hbr, h3, h4, h6, h7, h8]
    simp [optText, spaced, specWords]
  · have hbz : body ≠ 0 := by have := hb.lo; omega
    have hfx : Fits x := (Fits.append (Fits.append hf'.2.2).1).2
    refine (C46_function (e := E) (n := E.h.cell p) (l := lead ++ trail) (t := x) (rt := rt) (pt := px) (st := []) ⟨hv, rfl, by rw [hp]; simp [hbz]⟩
      (by rw [hp]; exact hb.says E ha hfx) (by rw [hp]; exact fun hh => absurd rfl hh) (by rw [hp]; exact hsl) (by rw [hp]; exact fun _ => htp)
      (by rw [hp]; exact hpp) (by rw [hp]; exact fun hh => absurd rfl hh)).print' ?_ hf
    have h3 : ifText (exported (E.h.cell p)) b!"export" = [] := by rw [hp]; rfl
    have h6 : (E.h.cell p).attributes = 0 := by rw [hp]
    have h7 : (E.h.cell p).suffix = 0 := by rw [hp]
    rw [hl1, hl2, hsig, hbr, h3, h6, h7]
    simp [optText, spaced, specWords]

theorem stripSpaces_eq (h : (0 : UInt8) ∉ x) : stripSpaces x = noSpaces x := by
  unfold stripSpaces noSpaces
  rw [cText_eq h]

/-- The rest of a function, whose specifiers and type have been parsed. -/
theorem functionAfterName_run {sq ty : Nat} {lead trail : List Specifier} {px z rt : Bytes} {ps qs es : List Tok} (h0 : 0 < a) (hS : SpecsIn a ty s.heap sq lead)
    (hsq : sq < ty) (hT : Stands .typename ty s.heap.next s.heap ty rt) (haty : a ≤ ty) (hn0 : (0 : UInt8) ∉ name) (hne : noSpaces name ≠ [])
    (hP : ParamsToks e.mem px ps) (hQ : SpecToks e.mem trail qs) (hm : ∀ s ∈ trail, Lex.lookupMacro e.ms (specToStr s) = none)
    (hl : lead.length + trail.length ≤ 14) (hs1 : ∀ x ∈ lead, specIsTrailing x = false) (hs2 : ∀ x ∈ trail, specIsTrailing x = true)
    (hs3 : ∀ x ∈ lead ++ trail, x ≠ .Pure ∧ x ≠ .Delete) (hE : FnEnd e.mem z es) (hC : Calm es (more ++ rest))
    (h : Here e s (ps ++ (qs ++ (es ++ more))) rest) :
    ∃ p h', functionAfterName 0 0 sq ty name e s = .ok (p, ⟨s.idx + (ps ++ qs ++ es).length, h', s.scope⟩) ∧ Agree 1 a s.heap h' ∧ a ≤ p ∧ p + 1 = h'.next ∧ Single h' p ∧
      Shown a p h' (specWords lead ++ (if lead = [] then [] else b!"\n") ++ rt ++ b!" " ++ noSpaces name ++ b!"(" ++ px ++ b!")" ++ specWords trail ++ z) := by
  have hhi := hT.hi
  have hn : 0 < s.heap.next := by omega
  have hk := h.heap s.heap (b!"parse_function_after_name" :: s.scope)
  obtain ⟨pp, h1, r1, r2, r3, r4⟩ := params_run hP (s := ⟨s.idx, s.heap, b!"parse_function_after_name" :: s.scope⟩) hn hk
  have r3 : s.heap.next ≤ h1.next := r3
  have r2 : Agree 1 s.heap.next s.heap h1 := r2
  have hk1 : Here e ⟨s.idx + ps.length, h1, b!"parse_function_after_name" :: s.scope⟩ (qs ++ (es ++ more)) rest := (hk.advN.heap _ _).at rfl
  obtain ⟨t, tl, ht1, ht2, ht3⟩ := fnEnd_first hE
  have hk1' := hk1
  rw [ht1, List.cons_append] at hk1'
  have hS1 : SpecsIn a h1.next h1 sq lead := hS.agree (r2.mono (by omega) (by omega)) (Nat.le_refl _) (by omega)
  obtain ⟨q2, h2, i1, i2, i3⟩ := fnSuffix_run hQ hm ht2 ht3 h0 (s := ⟨s.idx + ps.length, h1, b!"parse_function_after_name" :: s.scope⟩) (by show a ≤ h1.next; omega) hS1 hl hk1'
  have i4 : h1.next ≤ h2.next := i3.1
  have i3 : AllBut sq h1 h2 := i3
  have hlow : Agree 1 a h1 h2 := by
    refine i3.agree (by omega) (by omega) ?_
    unfold SpecsIn at hS
    split at hS
    · omega
    · omega
  have hmid : Agree ty h1.next h1 h2 := i3.agree (by omega) (Nat.le_refl _) (.inl hsq)
  have hk2 : Here e ⟨s.idx + ps.length + qs.length, h2, b!"parse_function_after_name" :: s.scope⟩ (es ++ more) rest := (hk1.advN.heap _ _).at rfl
  -- the end
  obtain ⟨bp, h3, j1, j2, j3, j4⟩ : ∃ bp h3, Kept h2 h3 ∧ h2.next ≤ h3.next ∧ EndsAs h2.next h3.next h3 bp z ∧
      ∀ (F : Nat × Nat × Nat → P Nat) (r : Res (Nat × St)), F (bp, q2, 0) e ⟨s.idx + ps.length + qs.length + es.length, h3, b!"parse_function_after_name" :: s.scope⟩ = r →
        (do
          if ← check .BraceCurly_Open then
            let b ← functionBody
            F (b, q2, 0)
          else if ← checkOp 61 then
            let r ← fnPure q2
            F (0, r.1, r.2)
          else
            let c ← endStmt
            F (0, q2, c)) e ⟨s.idx + ps.length + qs.length, h2, b!"parse_function_after_name" :: s.scope⟩ = r := by
    cases hE with
    | @decl u hu =>
      refine ⟨0, h2, Kept.refl _, Nat.le_refl _, .inl ⟨rfl, rfl⟩, fun F r hF => ?_⟩
      have hfm := isFmt_of_type hu.type (by decide) (by decide)
      refine bind_run (hk2.check hfm _) ?_
      simp only [hu.type, reduceCtorEq, decide_false, Bool.false_eq_true, if_false]
      refine bind_run (a := false) (s' := ⟨s.idx + ps.length + qs.length, h2, b!"parse_function_after_name" :: s.scope⟩) ?_ ?_
      · unfold checkOp
        refine bind_run (hk2.check hfm _) ?_
        simp only [hu.type, reduceCtorEq, decide_false, Bool.false_eq_true, if_false]
        rfl
      · simp only [Bool.false_eq_true, if_false]
        refine bind_run (endStmt_run hu (hC u (by simp) hu.type) hk2) hF
    | @body x bs hb =>
      have hn2 : 0 < h2.next := by omega
      obtain ⟨p, h3, w1, w2, w3, w4⟩ := functionBody_run hb (s := ⟨s.idx + ps.length + qs.length, h2, b!"parse_function_after_name" :: s.scope⟩) hn2 hk2
      refine ⟨p, h3, w2, w3, .inr ⟨x, rfl, w4⟩, fun F r hF => ?_⟩
      obtain ⟨o, ol, ho1, ho2⟩ : ∃ o ol, es = o :: ol ∧ TokIs e.mem o .BraceCurly_Open 0 b!"{" := by
        cases hb with
        | empty ho => exact ⟨_, _, rfl, ho⟩
        | text ho => exact ⟨_, _, rfl, ho⟩
      have hk2' := hk2
      rw [ho1, List.cons_append] at hk2'
      refine bind_run (hk2'.check (isFmt_of_type ho2.type (by decide) (by decide)) _) ?_
      simp only [ho2.type, decide_true, if_true]
      exact bind_run w1 hF
  obtain ⟨n, hnode⟩ : ∃ n : Node, n = {
    type := if bp = 0 then .Function_Fwd else .Function, name := noSpaces name, body := bp, specs := q2, typ := ty, params := pp } := ⟨_, rfl⟩
  have hn3 : 0 < h3.next := by omega
  refine ⟨h3.next, grown h3 n, inScope_run (sc := b!"parse_function_after_name" :: s.scope) ?_ rfl, ?_, by omega, rfl, ?_, ?_⟩
  · refine bind_run r1 ?_
    refine bind_run i1 ?_
    refine j4 (fun v => make {
      type := if v.1 = 0 then .Function_Fwd else .Function, name := stripSpaces name, moduleFlags := 0, body := v.1,
      attributes := 0, specs := v.2.1, suffix := 0, typ := ty, params := pp, inlineCmt := v.2.2 }) _ ?_
    simp only []
    rw [make_run (s := ⟨s.idx + ps.length + qs.length + es.length, h3, b!"parse_function_after_name" :: s.scope⟩) hn3, stripSpaces_eq hn0, hnode]
    simp [Nat.add_assoc]
  · exact ((r2.mono (Nat.le_refl _) (by omega)).trans hlow).trans (agree_kept (by omega) (by omega) (j1.trans (kept_grown _ _)))
  · unfold Single
    have : (grown h3 n).cell h3.next = n := by simp [grown]
    rw [this, hnode]
    refine ⟨rfl, ?_⟩
    by_cases hb : bp = 0 <;> simp [hb, isBodyType]
  · intro E x f k g1 g2 g3 g4
    have hc : (grown h3 n).cell h3.next = n := by simp [grown]
    rw [hc, hnode] at g3
    have hk3 : Agree a h3.next h3 (grown h3 n) := agree_kept h0 (Nat.le_refl _) (kept_grown _ _)
    have ha23 : ∀ lo hi, 0 < lo → hi ≤ h2.next → Agree lo hi h2 h3 := fun lo hi q1 q2 => agree_kept q1 q2 j1
    refine function_says (b := h3.next) (h := h3) h0 (hk3.trans g1) g2 g3 hne (i2.agree (ha23 _ _ h0 (Nat.le_refl _)) (Nat.le_refl _) j2) hs1 hs2 hs3 ?_ ?_ ?_
    · exact hT.agree (((r2.mono (by omega) (Nat.le_refl _)).trans (hmid.mono (Nat.le_refl _) r3)).trans (ha23 _ _ (by omega) (by omega))) haty (by omega)
    · rcases r4 with r4 | r4
      · exact .inl r4
      · exact .inr (r4.agree ((hmid.mono (by show ty ≤ s.heap.next; omega) (Nat.le_refl _)).trans (ha23 _ _ hn i4)) (by show a ≤ s.heap.next; omega) (by omega))
    · rcases j3 with j3 | ⟨y, j5, j6⟩
      · exact .inl j3
      · exact .inr ⟨y, j5, ⟨Nat.le_trans (by omega) j6.lo, j6.hi, fun E hE => j6.says E (hE.mono (by omega) (Nat.le_refl _))⟩⟩

theorem fnSpecs_ok {l : List Specifier} (h : ∀ x ∈ l, x ∈ fnSpecs) : ∀ x ∈ l, stuckAtConst functionSpecs x = some (some true) ∧ specIsTrailing x = false ∧ x ≠ .Pure ∧ x ≠ .Delete := by
  intro x hx
  have := h x hx
  simp only [fnSpecs, List.mem_cons, List.not_mem_nil, or_false] at this
  rcases this with rfl | rfl | rfl | rfl | rfl | rfl | rfl | rfl <;> exact ⟨rfl, rfl, by decide, by decide⟩

theorem fnSuffixes_ok {l : List Specifier} (h : ∀ x ∈ l, x ∈ fnSuffixes) : ∀ x ∈ l, specIsTrailing x = true ∧ x ≠ .Pure ∧ x ≠ .Delete := by
  intro x hx
  have := h x hx
  simp only [fnSuffixes, List.mem_cons, List.not_mem_nil, or_false] at this
  rcases this with rfl | rfl | rfl | rfl <;> exact ⟨rfl, by decide, by decide⟩

theorem ParamsToks.first {c : Bytes} (h : ParamsToks c x ts) : ∃ o tl, ts = o :: tl ∧ TokIs c o .Paren_Open 0 b!"(" := by
  cases h with
  | none ho => exact ⟨_, _, rfl, ho⟩
  | some ho => exact ⟨_, _, rfl, ho⟩

theorem FnToks.last {ms : Lex.Macros} {c : Bytes} {f : Tok} {pre es : List Tok} {z : Bytes} {cells : List Tok} (hE : FnEnd c z es) (hC : Calm (pre ++ es) cells) : Calm es cells := by
  intro u hu
  obtain ⟨t, tl, rfl, -⟩ := fnEnd_first hE
  refine hC u ?_
  rw [List.getLast?_append, hu]
  rfl

/-- The first token of a type that does not begin with `const` ends the loop over the specifiers. -/
theorem TypeToks.stops_at {c : Bytes} {l : List Specifier} {f : Tok} (hT : TypeToks c l name ts) (hf : ts.head? = some f) (hk : f.type ≠ .Spec_Const)
    {ok : Specifier → Option (Option Bool)} : StopsAt c ok f ∧ f.type ≠ .Module_Export ∧ has f Lex.fAttribute = false := by
  obtain ⟨g, tl, h1, h2, h3, h4⟩ := hT.stops (ok := fun x => if x = .Const then some none else none) rfl
  rw [h1] at hf
  cases hf
  obtain ⟨f', tl', h5, h6, h7, -⟩ := hT.first
  rw [h1] at h5
  obtain ⟨rfl, -⟩ := List.cons.inj h5
  refine ⟨⟨h6, .inl ?_⟩, h3, h4⟩
  rcases h7 with h7 | h7
  · unfold has; rw [h7]; rfl
  · exact absurd h7.type hk

theorem parseFunction_run {f : Tok} (hF : FnToks e.ms e.mem f x ts) (hk : f.type ≠ .Spec_Const) (hC : Calm ts (more ++ rest)) (hn : 0 < s.heap.next) (h : Here e s (ts ++ more) rest) :
    Gives parseFunction e s ts.length x := by
  obtain ⟨hH, hP, hQ, hQ2, hQ3, hl, hE⟩ := hF
  obtain ⟨hhd, hs1, hs2, hT, hN, hn0, hne⟩ := hH
  rename_i lead px ps trail qs z es ss tspecs tname ts name ns
  have hCe : Calm es (more ++ rest) := FnToks.last (ms := e.ms) (f := f) hE hC
  have h0 := h.heap s.heap (b!"parser_parse_function" :: s.scope)
  have h0 : Here e ⟨s.idx, s.heap, b!"parser_parse_function" :: s.scope⟩ (ss ++ (ts ++ (ns ++ (ps ++ (qs ++ (es ++ more)))))) rest := by simpa using h0
  obtain ⟨hf2, hf3, hf4⟩ := hT.stops_at hhd hk (ok := stuckAtConst functionSpecs)
  obtain ⟨tl, hf1⟩ : ∃ tl, ts = f :: tl := by
    cases ts with
    | nil => cases hhd
    | cons g tl => cases hhd; exact ⟨tl, rfl⟩
  obtain ⟨-, -, -, -, -, htn⟩ := hT.first
  obtain ⟨g, gl, hg1, hg2, hg3, hg4⟩ := hs1.first (f := f) (tl := tl ++ (ns ++ (ps ++ (qs ++ (es ++ more))))) hf2.1 hf4 hf3
  have h0f : Here e ⟨s.idx, s.heap, b!"parser_parse_function" :: s.scope⟩ (ss ++ f :: (tl ++ (ns ++ (ps ++ (qs ++ (es ++ more)))))) rest := by
    rw [hf1] at h0; simpa using h0
  have h0g := h0f
  rw [hg1] at h0g
  have r1 := specifiersLoop_run hs1 (fun x hx => (fnSpecs_ok hs2 x hx).1) h0f hf2 (found := []) (by rw [List.length_nil]; omega)
  rw [List.nil_append] at r1
  obtain ⟨sq, h1, r2, k2, n2, q2⟩ := specsOf_run (e := e) (s := (St.mk s.idx s.heap (b!"parser_parse_function" :: s.scope)).adv ss.length) (l := lead) hn (by omega)
  have hh1 : Here e ⟨s.idx + ss.length, h1, b!"parser_parse_function" :: s.scope⟩ (ts ++ (ns ++ (ps ++ (qs ++ (es ++ more))))) rest := h0.advN.at rfl
  obtain ⟨i, il, y, hi1, hi2⟩ := hN.first
  have hh1' := hh1
  rw [hi1, List.cons_append] at hh1'
  have n2' : s.heap.next ≤ h1.next := n2
  obtain ⟨h2, r3, k3, n3, q3⟩ := type_run hT hh1' hi2.ends (Nat.lt_of_lt_of_le hn n2')
  have n3 : h1.next < h2.next := n3
  have hh2 : Here e ⟨s.idx + ss.length + ts.length, h2, b!"parser_parse_function" :: s.scope⟩ (ns ++ (ps ++ (qs ++ (es ++ more)))) rest := hh1.advN.at rfl
  obtain ⟨o, ol, ho1, ho2⟩ := hP.first
  have hh2' := hh2
  rw [ho1, List.cons_append] at hh2'
  obtain ⟨i', il', hi3, hi4, r4⟩ := identifier_run hN hh2' ⟨isFmt_of_type ho2.type (by decide) (by decide), by rw [ho2.type]; decide, fun hh => by rw [ho2.type] at hh; cases hh⟩
  have hh3 : Here e ⟨s.idx + ss.length + ts.length + ns.length, h2, b!"parser_parse_function" :: s.scope⟩ (ps ++ (qs ++ (es ++ more))) rest := hh2.advN.at rfl
  have hnn : name ≠ [] := by cases hN; assumption
  have q2 : SpecsIn s.heap.next h1.next h1 sq lead := q2
  have hsq : sq < h1.next := by
    unfold SpecsIn at q2
    split at q2
    · omega
    · exact q2.2.1
  obtain ⟨p, h3, r5, r6, r7, r8, r9, r10⟩ := functionAfterName_run (a := s.heap.next) (s := ⟨s.idx + ss.length + ts.length + ns.length, h2, b!"parser_parse_function" :: s.scope⟩)
    (lead := lead) (rt := typeText tname tspecs) (sq := sq) (ty := h1.next) hn (q2.agree (agree_kept hn (Nat.le_refl _) k3) (Nat.le_refl _) (Nat.le_refl _))
    hsq (type_stands q3 (Nat.lt_of_lt_of_le hn n2') htn) n2' hn0 hne hP hQ hQ3 hl (fun x hx => (fnSpecs_ok hs2 x hx).2.1) (fun x hx => (fnSuffixes_ok hQ2 x hx).1)
    (fun x hx => (List.mem_append.1 hx).elim (fun hx => (fnSpecs_ok hs2 x hx).2.2) (fun hx => (fnSuffixes_ok hQ2 x hx).2)) hE hCe hh3
  refine ⟨p, h3, inScope_run (sc := b!"parser_parse_function" :: s.scope) ?_ rfl, ?_, r7, r8, r9, ?_⟩
  · refine bind_run (h0g.exportFlag hg2 hg4) ?_
    refine bind_run (h0g.attributes hg2 hg3) ?_
    refine bind_run r1 ?_
    refine bind_run r2 ?_
    refine bind_run r3 ?_
    refine bind_run r4 ?_
    have hv : valid ⟨i'.start, name.length⟩ .Identifier = true := by
      unfold valid
      simp [hnn]
    simp only [hv, Bool.not_true, Bool.false_eq_true, if_false]
    refine bind_run (spanBytes hi4) ?_
    rw [r5]
    simp [Nat.add_assoc]
  · exact (agree_kept (Nat.succ_pos _) (Nat.le_refl _) (k2.trans k3)).trans r6
  · simpa using r10

end Verif.Parse
