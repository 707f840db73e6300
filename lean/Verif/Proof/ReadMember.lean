import Verif.Proof.ReadFn
import Verif.Props.ReadBodySpec
/-!
# Running the parser on a declaration in a body
-/
namespace Verif.Parse
open Verif.Lex (Tok)
open Verif.Ast P
open Verif.Ser hiding Env boundsText isNext

variable {e : Env} {s : St} {t u : Tok} {ts vs more rest : List Tok} {x name : Bytes} {a b : Nat}

/-- Like `Gives`, but the nodes from `a` on may be changed. -/
def GivesFrom (a : Nat) (f : P Nat) (e : Env) (s : St) (n : Nat) (t : Bytes) : Prop :=
  ∃ p h', f e s = .ok (p, ⟨s.idx + n, h', s.scope⟩) ∧ Agree 1 a s.heap h' ∧ a ≤ p ∧ p + 1 = h'.next ∧ Single h' p ∧ Shown a p h' t

theorem Here.nth (h : Here e s ts rest) (i : Nat) : e.cells[s.idx + i]? = (ts ++ rest)[i]? := by
  rw [← List.getElem?_drop, h.cells]

theorem Here.tokAt {i : Nat} (h : Here e s ts rest) (hi : (ts ++ rest)[i]? = some t) : Parse.tokAt (s.idx + i) e s = Res.ok (t, s) := by
  unfold Parse.tokAt
  rw [h.nth, hi]
  rfl

theorem Here.nextTok {f : Tok} (h : Here e s (f :: ts) rest) (hf : f.type ≠ .NewLine) (hi : (f :: ts ++ rest)[1]? = some t) : Parse.next e s = Res.ok (t, s) := by
  unfold Parse.next
  rw [h.cells, List.cons_append]
  have : skipFmt (fun t => decide (t.type = .NewLine)) (f :: (ts ++ rest)) s.idx = .ok (f, s.idx) := by
    unfold skipFmt
    simp [hf]
  rw [this, Res.ok_bind]
  simp only [h.nth, hi]
  rfl

/-- There is no operator ahead: a name stands here. -/
theorem operatorComes_run {ns : List Tok} (hN : QualToks e.mem x ns) (ht : t.type ≠ .Access_StaticSymbol) (h : Here e s (ns ++ t :: more) rest) :
    operatorComes e s = .ok (false, s) := by
  obtain ⟨hf, hl, -, -⟩ := hN
  rename_i f y l
  have key : ∀ (l : List (Tok × Tok)) (f : Tok), f.type = .Identifier → Parts e.mem l → ∀ (fuel i : Nat), l.length < fuel → i + (f :: l.flatMap partToks).length < e.num + 1 →
      (∀ j, e.cells[i + j]? = (f :: l.flatMap partToks ++ (t :: more ++ rest))[j]?) → operatorAhead e.cells e.num fuel i = .ok false := by
    intro l
    induction l with
    | nil =>
      intro f hf hl fuel i hfu hi hc
      obtain ⟨fuel, rfl⟩ : ∃ k, fuel = k + 1 := ⟨fuel - 1, by omega⟩
      unfold operatorAhead
      have h0 := hc 0
      have h1 := hc 1
      simp at h0 h1 hi
      rw [if_pos (by omega), h0]
      simp only [Res.ofOption, Res.ok_bind, hf, if_true, h1, if_neg ht]
    | cons p l ih =>
      intro f hf hl fuel i hfu hi hc
      obtain ⟨fuel, rfl⟩ : ∃ k, fuel = k + 1 := ⟨fuel - 1, by omega⟩
      unfold operatorAhead
      have h0 := hc 0
      have h1 := hc 1
      obtain ⟨hp1, z, hp2⟩ := hl p (List.mem_cons_self ..)
      simp [partToks] at h0 h1 hi
      rw [if_pos (by omega), h0]
      simp only [Res.ofOption, Res.ok_bind, hf, if_true, h1, hp1]
      refine ih p.2 hp2.1.type (fun q hq => hl q (List.mem_cons_of_mem _ hq)) fuel (i + 2) (by simp at hfu; omega) (by simp [partToks]; omega) fun j => ?_
      have := hc (j + 2)
      rw [show i + 2 + j = i + (j + 2) by omega, this]
      simp [partToks]
  unfold operatorComes
  refine bind_run (envP _ _) ?_
  refine bind_run (getP _ _) ?_
  have hlen := h.length_le
  have hnum := h.num
  simp only [List.length_append, List.length_cons, List.length_flatMap] at hlen hnum
  have hll : (l.map fun p => (partToks p).length).sum = 2 * l.length := by
    clear hlen hnum hl h
    induction l with
    | nil => rfl
    | cons p l ih => rw [List.map_cons, List.sum_cons, ih]; simp only [List.length_cons, partToks, List.length_nil]; omega
  have := key l f hf.1.type hl (e.cells.length + 1) s.idx (by omega) (by simp only [List.length_cons, List.length_flatMap]; omega) (fun j => by
    rw [h.nth]; simp)
  show (operatorAhead _ _ _ _).bind _ = _
  rw [this]
  rfl

/-- The tokens behind the name, by which values are told from parameters. -/
theorem valuesAhead_run {f n m : Tok} (hf : f.type ≠ .NewLine) (hn : n.type ≠ .Preprocess_Macro_Expr) (hm : m.type ≠ .Comma ∨ n.type = .Varadic_Argument)
    (h : Here e s (f :: more) rest) (h1 : (f :: more ++ rest)[1]? = some n) (h2 : (f :: more ++ rest)[2]? = some m) : valuesAhead e s = .ok (false, s) := by
  unfold valuesAhead
  refine bind_run (envP _ _) ?_
  refine bind_run (getP _ _) ?_
  refine bind_run (h.tokAt h2) ?_
  refine bind_run (h.nextTok hf h1) ?_
  have : ¬ (m.type = .Comma ∧ n.type ≠ .Varadic_Argument) := by
    rintro ⟨h1, h2⟩
    rcases hm with hm | hm
    · exact hm h1
    · exact h2 hm
  simp only [this, if_false, hn]
  rfl

theorem valuesAhead_any {f n m : Tok} (hf : f.type ≠ .NewLine) (hn : n.type ≠ .Preprocess_Macro_Expr)
    (h : Here e s (f :: more) rest) (h1 : (f :: more ++ rest)[1]? = some n) (h2 : (f :: more ++ rest)[2]? = some m) : ∃ b, valuesAhead e s = .ok (b, s) := by
  refine ⟨decide (m.type = .Comma ∧ n.type ≠ .Varadic_Argument), ?_⟩
  unfold valuesAhead
  refine bind_run (envP _ _) ?_
  refine bind_run (getP _ _) ?_
  refine bind_run (h.tokAt h2) ?_
  refine bind_run (h.nextTok hf h1) ?_
  by_cases hq : m.type = .Comma ∧ n.type ≠ .Varadic_Argument
  · simp only [hq, ne_eq, not_false_eq_true, and_self, if_true, decide_true]
    rfl
  · simp only [hq, if_false, hn, decide_false]
    rfl

theorem macroAs_run (h : Here e s (t :: more) rest) (hf : isFmt t = false) (ht : t.type ≠ .Preprocess_Macro_Stmt) (attrs specs : Nat) :
    macroAsDefinition attrs specs e s = .ok (0, s) := by
  refine inScope_run (sc := b!"parse_macro_as_definiton" :: s.scope)  (i := s.idx) (h := s.heap) ?_ rfl
  refine bind_run ((h.heap s.heap _).cur hf) ?_
  simp only [ne_eq, ht, not_false_eq_true, if_true]
  rfl

theorem moreAttributes_run (h : Here e s (t :: more) rest) (hf : isFmt t = false) (ht : has t Lex.fAttribute = false) : moreAttributes 0 e s = .ok (0, s) := by
  unfold moreAttributes
  refine bind_run (h.attributes hf ht) ?_
  simp only [ne_eq, not_true_eq_false, if_false]
  rfl

theorem IdTok.plain {c : Bytes} (h : IdTok c t x) : isFmt t = false ∧ has t Lex.fAttribute = false := by
  refine ⟨isFmt_of_type h.1.type (by decide) (by decide), ?_⟩
  unfold has
  rw [h.1.flags]
  rfl

/-- Up to the name of a variable or function. -/
theorem opFnOrVar_head {ns : List Tok} {tspecs : List Specifier} {tname : Bytes} {sq : Nat} {ex : Bool} (hT : TypeToks e.mem tspecs tname ts) (hN : QualToks e.mem name ns)
    (ht : NameEnds e.mem t) (hn : 0 < s.heap.next) (h : Here e s (ts ++ (ns ++ t :: more)) rest) :
    ∃ h' txt, Kept s.heap h' ∧ s.heap.next < h'.next ∧ IsType s.heap.next h'.next h' s.heap.next tname tspecs 0 ∧
      Here e ⟨s.idx + ts.length + ns.length, h', b!"parse_operator_function_or_variable" :: s.scope⟩ (t :: more) rest ∧
      (∀ s : St, bytes txt e s = .ok (name, s)) ∧ ∀ (p : Nat) (s' : St), ((do
        let capture ← check .Paren_Open
        let values ← valuesAhead
        if capture ∧ !values then functionAfterName 0 0 sq s.heap.next (← bytes txt)
        else if ex then fail
        else variableAfterName 0 0 sq s.heap.next (← bytes txt) : P Nat) e ⟨s.idx + ts.length + ns.length, h', b!"parse_operator_function_or_variable" :: s.scope⟩ =
          .ok (p, ⟨s'.idx, s'.heap, b!"parse_operator_function_or_variable" :: s.scope⟩)) → opFnOrVar ex 0 sq e s = .ok (p, ⟨s'.idx, s'.heap, s.scope⟩) := by
  obtain ⟨f, tl, hf1, hf2, hf3, -⟩ := hT.first
  have h0 := h.heap s.heap (b!"parse_operator_function_or_variable" :: s.scope)
  obtain ⟨i, il, y, hi1, hi2⟩ := hN.first
  have h0' := h0
  rw [hi1, List.cons_append] at h0'
  obtain ⟨h2, r3, k3, n3, q3⟩ := type_run hT h0' hi2.ends hn
  have hh2 : Here e ⟨s.idx + ts.length, h2, b!"parse_operator_function_or_variable" :: s.scope⟩ (ns ++ t :: more) rest := h0.advN.at rfl
  have hh2' := hh2
  rw [hi1, List.cons_append] at hh2'
  obtain ⟨i', il', hi3, hi4, r4⟩ := identifier_run hN hh2 ht
  have hh3 : Here e ⟨s.idx + ts.length + ns.length, h2, b!"parse_operator_function_or_variable" :: s.scope⟩ (t :: more) rest := hh2.advN.at rfl
  refine ⟨h2, _, k3, n3, q3, hh3, fun _ => spanBytes hi4, fun p s' hrun => ?_⟩
  refine inScope_run (sc := b!"parse_operator_function_or_variable" :: s.scope) ?_ rfl
  have hms : f.type ≠ .Preprocess_Macro_Stmt := by
    obtain ⟨f', tl', g1, -, g2⟩ := hT.starts
    rw [g1] at hf1
    obtain ⟨rfl, -⟩ := List.cons.inj hf1
    exact starts_ne g2 (by decide)
  have h0f := h0
  rw [hf1, List.cons_append] at h0f
  refine bind_run (macroAs_run h0f hf2 hms 0 sq) ?_
  simp only [ne_eq, not_true_eq_false, if_false]
  refine bind_run r3 ?_
  refine bind_run (moreAttributes_run hh2' hi2.plain.1 hi2.plain.2) ?_
  refine bind_run (operatorComes_run hN ht.colons hh2) ?_
  simp only [Bool.false_eq_true, if_false]
  unfold identText
  refine bind_run (bind_run r4 (pureP _ _ _)) ?_
  exact hrun

theorem opFnOrVar_var {ns : List Tok} {specs tspecs : List Specifier} {tname tail : Bytes} {sq : Nat} (hT : TypeToks e.mem tspecs tname ts) (hN : QualToks e.mem name ns)
    (hL : TailToks e.mem u tail vs) (hu : TokIs e.mem u .Statement_End 512 b!";") (hp : ∀ t, vs.head? = some t → t.type ≠ .Paren_Open)
    (hm : ∀ t, (vs ++ u :: more ++ rest)[1]? = some t → t.type ≠ .Preprocess_Macro_Expr) (hc : NoComment u more) (hr : 2 ≤ (more ++ rest).length)
    (h0 : 0 < a) (han : a ≤ s.heap.next) (hS : SpecsIn a s.heap.next s.heap sq specs) (h : Here e s (ts ++ (ns ++ (vs ++ u :: more))) rest) :
    GivesFrom a (opFnOrVar false 0 sq) e s (ts ++ ns ++ vs ++ [u]).length
      ((if specs = [] then [] else Ser.specsText specs) ++ typeText tname tspecs ++ b!" " ++ name ++ tail ++ b!";\n") := by
  obtain ⟨-, -, -, -, -, htn⟩ := hT.first
  obtain ⟨t, tl, ht1, ht2⟩ := hL.first (more := more) hu
  have htp : t.type ≠ .Paren_Open := by
    cases vs with
    | nil => cases ht1; rw [hu.type]; decide
    | cons v vs => cases ht1; exact hp _ rfl
  have h' := h
  rw [ht1] at h'
  obtain ⟨h2, txt, k2, n2, q2, hh2, hb, hrun⟩ := opFnOrVar_head (sq := sq) (ex := false) hT hN ht2 (by omega) h'
  have hne : name ≠ [] := by cases hN; assumption
  have hh3 := hh2
  rw [← ht1] at hh3
  obtain ⟨p, h3, r5, r6, r7, r8, r9, r10⟩ := variableAfterName_run (a := a) (specs := specs) (tspecs := tspecs) (tname := tname) (sq := sq) (ty := s.heap.next) h0
    (hS.agree (agree_kept h0 (Nat.le_refl _) k2) (Nat.le_refl _) (Nat.le_refl _)) ⟨Nat.le_trans han q2.lo, q2.hi, q2.cell⟩ htn hne hL hu hc hh3
  have hfm := ht2.1
  have hlen : 2 < (t :: tl ++ rest).length := by
    rw [← ht1]
    simp at hr ⊢
    omega
  obtain ⟨bv, hv⟩ := valuesAhead_any (n := (t :: tl ++ rest)[1]) (m := (t :: tl ++ rest)[2]) (fun hh => by unfold isFmt at hfm; simp [hh] at hfm)
    (hm _ (by rw [ht1]; exact List.getElem?_eq_getElem (by omega))) hh2 (List.getElem?_eq_getElem (by omega)) (List.getElem?_eq_getElem (by omega))
  refine ⟨p, h3, ?_, (agree_kept (Nat.succ_pos _) han k2).trans r6, r7, r8, r9, r10⟩
  have := hrun p ⟨s.idx + (ts ++ ns ++ vs ++ [u]).length, h3, []⟩ ?_
  · exact this
  refine bind_run (hh2.check hfm _) ?_
  refine bind_run hv ?_
  simp only [htp, decide_false, Bool.false_eq_true, false_and, if_false]
  refine bind_run (hb _) ?_
  rw [r5]
  simp [Nat.add_assoc]

theorem opFnOrVar_fn {ns : List Tok} {lead trail tspecs : List Specifier} {tname px z : Bytes} {ps qs es : List Tok} {sq : Nat} {ex : Bool} (hT : TypeToks e.mem tspecs tname ts)
    (hN : QualToks e.mem name ns) (hn0 : (0 : UInt8) ∉ name) (hne : noSpaces name ≠ [])
    (hP : ParamsToks e.mem px ps) (hP2 : ∀ t, ps[2]? = some t → t.type ≠ .Comma) (hQ : SpecToks e.mem trail qs) (hQ2 : ∀ s ∈ trail, s ∈ fnSuffixes)
    (hm : ∀ s ∈ trail, Lex.lookupMacro e.ms (specToStr s) = none)
    (hl : lead.length + trail.length ≤ 14) (hs1 : ∀ x ∈ lead, specIsTrailing x = false ∧ x ≠ .Pure ∧ x ≠ .Delete) (hE : FnEnd e.mem z es) (hC : Calm es (more ++ rest))
    (h0 : 0 < a) (han : a ≤ s.heap.next) (hS : SpecsIn a s.heap.next s.heap sq lead) (h : Here e s (ts ++ (ns ++ (ps ++ (qs ++ (es ++ more))))) rest) :
    GivesFrom a (opFnOrVar ex 0 sq) e s (ts ++ ns ++ ps ++ qs ++ es).length
      (specWords lead ++ (if lead = [] then [] else b!"\n") ++ typeText tname tspecs ++ b!" " ++ noSpaces name ++ b!"(" ++ px ++ b!")" ++ specWords trail ++ z) := by
  obtain ⟨-, -, -, -, -, htn⟩ := hT.first
  obtain ⟨o, ol, ho1, ho2⟩ := hP.first
  have hof := isFmt_of_type ho2.type (by decide) (by decide)
  have ho3 : NameEnds e.mem o := ⟨hof, by rw [ho2.type]; decide, fun hh => by rw [ho2.type] at hh; cases hh⟩
  have h' := h
  rw [ho1, List.cons_append] at h'
  obtain ⟨h2, txt, k2, n2, q2, hh2, hb, hrun⟩ := opFnOrVar_head (sq := sq) (ex := ex) hT hN ho3 (by omega) h'
  have hh3 : Here e ⟨s.idx + ts.length + ns.length, h2, b!"parse_operator_function_or_variable" :: s.scope⟩ (ps ++ (qs ++ (es ++ more))) rest := by
    rw [ho1, List.cons_append]; exact hh2
  have hsq : sq < s.heap.next := by
    unfold SpecsIn at hS
    split at hS
    · omega
    · exact hS.2.1
  obtain ⟨p, h3, r5, r6, r7, r8, r9, r10⟩ := functionAfterName_run (a := a) (s := ⟨s.idx + ts.length + ns.length, h2, b!"parse_operator_function_or_variable" :: s.scope⟩)
    (lead := lead) (rt := typeText tname tspecs) (sq := sq) (ty := s.heap.next) h0 (hS.agree (agree_kept h0 (Nat.le_refl _) k2) (Nat.le_refl _) (Nat.le_refl _))
    hsq (type_stands q2 (by omega) htn) han hn0 hne hP hQ hm hl (fun x hx => (hs1 x hx).1) (fun x hx => (fnSuffixes_ok hQ2 x hx).1)
    (fun x hx => (List.mem_append.1 hx).elim (fun hx => (hs1 x hx).2) (fun hx => (fnSuffixes_ok hQ2 x hx).2)) hE hC hh3
  obtain ⟨n, m, hn1, hm1, hn2, hm2⟩ : ∃ n m, (ps ++ (qs ++ (es ++ more)) ++ rest)[1]? = some n ∧ (ps ++ (qs ++ (es ++ more)) ++ rest)[2]? = some m ∧
      n.type ≠ .Preprocess_Macro_Expr ∧ m.type ≠ .Comma := by
    cases hP with
    | @none o z ho hz =>
      obtain ⟨t, tl, ht1, -⟩ := fnEnd_first hE
      cases hQ with
      | nil =>
        refine ⟨z, t, rfl, by rw [ht1]; rfl, by rw [hz.type]; decide, ?_⟩
        cases hE with
        | decl hu => cases ht1; rw [hu.type]; decide
        | body hb => cases hb with
          | empty ho => cases ht1; rw [ho.type]; decide
          | text ho => cases ht1; rw [ho.type]; decide
      | @cons x l t ts hx => exact ⟨z, t, rfl, rfl, by rw [hz.type]; decide, by rw [hx.type]; cases x <;> decide⟩
    | @some o z x ts xs us ho hP hM hz =>
      obtain ⟨f, tl, hf1, -, hf2⟩ := hP.first
      subst hf1
      obtain ⟨m, ml, hml⟩ : ∃ m ml, tl ++ us ++ [z] = m :: ml := by
        cases hq : tl ++ us ++ [z] with
        | nil => simp at hq
        | cons m ml => exact ⟨m, ml, rfl⟩
      have hps : o :: (f :: tl) ++ us ++ [z] = o :: f :: m :: ml := by
        rw [← hml]
        simp
      rw [hps] at hP2 ⊢
      exact ⟨f, m, rfl, rfl, starts_ne hf2 (by decide), hP2 m rfl⟩
  refine ⟨p, h3, ?_, (agree_kept (Nat.succ_pos _) han k2).trans r6, r7, r8, r9, r10⟩
  have := hrun p ⟨s.idx + (ts ++ ns ++ ps ++ qs ++ es).length, h3, []⟩ ?_
  · exact this
  refine bind_run (hh2.check hof _) ?_
  refine bind_run (valuesAhead_run (fun hh => by rw [ho2.type] at hh; cases hh) hn2 (.inl hm2) hh2 (by rw [← hn1, ho1]; simp) (by rw [← hm1, ho1]; simp)) ?_
  simp only [ho2.type, decide_true, Bool.not_false, and_self, if_true]
  refine bind_run (hb _) ?_
  rw [r5]
  simp [Nat.add_assoc]

theorem builtin_plain {ty : TokType} (h : ty ∈ builtinTypes) : ty ≠ .Paren_Open ∧ ty ≠ .Identifier ∧ ty ≠ .Access_StaticSymbol := by
  revert h
  cases ty <;> decide

theorem SpecToks.plain {c : Bytes} {l : List Specifier} (h : SpecToks c l ts) : ∀ t ∈ ts, t.type ≠ .Paren_Open := by
  induction h with
  | nil => intro t ht; cases ht
  | @cons x l t ts hx _ ih =>
    intro u hu
    rcases List.mem_cons.1 hu with rfl | hu
    · rw [hx.type]; cases x <;> decide
    · exact ih u hu

theorem QualToks.plain {c : Bytes} (h : QualToks c x ts) : ∀ t ∈ ts, t.type ≠ .Paren_Open := by
  obtain ⟨hf, hl, -, -⟩ := h
  intro t ht
  rcases List.mem_cons.1 ht with rfl | ht
  · rw [hf.1.type]; decide
  · obtain ⟨p, hp, ht⟩ := List.mem_flatMap.1 ht
    obtain ⟨h1, y, h2⟩ := hl p hp
    simp only [partToks, List.mem_cons, List.not_mem_nil, or_false] at ht
    rcases ht with rfl | rfl
    · rw [h1]; decide
    · rw [h2.1.type]; decide

theorem TypeToks.plain {c : Bytes} {l : List Specifier} (h : TypeToks c l x ts) : ∀ t ∈ ts, t.type ≠ .Paren_Open := by
  obtain ⟨h1, -, h2, -, h3, -, -⟩ := h
  intro t ht
  rcases List.mem_append.1 ht with ht | ht
  · rcases List.mem_append.1 ht with ht | ht
    · exact h1.plain t ht
    · cases h2 with
      | ident hq => exact hq.plain t ht
      | native hn => exact (builtin_plain (hn t ht)).1
  · exact h3.plain t ht

/-- A declaration: its specifiers, and the rest, which the last of the parsing functions reads. -/
theorem operatorComes_not {f : Tok} (hf : f.type ≠ .Identifier) (hf2 : f.type ≠ .Decl_Operator) (h : Here e s (f :: more) rest) : operatorComes e s = .ok (false, s) := by
  unfold operatorComes
  refine bind_run (envP _ _) ?_
  refine bind_run (getP _ _) ?_
  have h0 := h.nth 0
  have hn := h.num
  simp only [List.length_cons] at hn
  unfold res operatorAhead
  rw [if_pos (by omega), Nat.add_zero] at *
  rw [h0]
  simp [Res.ofOption, Res.ok_bind, hf, hf2]

/-- There is no operator ahead: a type stands here. -/
theorem operatorComes_type {l : List Specifier} {y : Bytes} {ns : List Tok} (hT : TypeToks e.mem l x ts) (hN : QualToks e.mem y ns) (h : Here e s (ts ++ (ns ++ more)) rest) :
    operatorComes e s = .ok (false, s) := by
  obtain ⟨h1, h2, h3, -, h4, h5, -⟩ := hT
  rename_i pre post ps nn qs raw
  cases h1 with
  | @cons q _ f _ hx _ =>
    have hq := h2 q List.mem_cons_self
    subst hq
    exact operatorComes_not (by rw [hx.type]; decide) (by rw [hx.type]; decide) h
  | nil =>
    cases h3 with
    | @native f l hf h0 =>
      have hf := hf f List.mem_cons_self
      refine operatorComes_not ?_ ?_ h
      · intro hh; rw [hh] at hf; revert hf; decide
      · intro hh; rw [hh] at hf; revert hf; decide
    | ident hq =>
      have h : Here e s (nn ++ (qs ++ (ns ++ more))) rest := by simpa using h
      obtain ⟨i, il, z, hi1, hi2⟩ := hN.first
      cases h4 with
      | nil =>
        rw [hi1] at h
        exact operatorComes_run hq (by rw [hi2.1.type]; decide) h
      | @cons q _ _ _ hx _ => exact operatorComes_run hq (by rw [hx.type]; cases q <;> decide) h

theorem DeclToks.split {k : Place} {next : List Tok} {y : Bytes} {us : List Tok} (hD : DeclToks e.ms e.mem k next y us)
    (hr : 2 ≤ (more ++ rest).length) (hm : ∀ t, (more ++ rest).head? = some t → t.type ≠ .Comment ∧ t.type ≠ .Preprocess_Macro_Expr) :
    ∃ specs ss f n tl, us = ss ++ f :: n :: tl ∧ SpecToks e.mem specs ss ∧ (∀ x ∈ specs, x ∈ placeSpecs k) ∧ (∀ x, specs.head? = some x → x ∈ firstSpecs k) ∧ specs.length ≤ 14 ∧
      f.type ∈ typeStarts ∧ isFmt f = false ∧ (specs = [] → f.type ∉ vendorTypes) ∧ n.type ≠ .Paren_Open ∧
      (∀ ok : Specifier → Option (Option Bool), ok .Const = some none → StopsAt e.mem ok f) ∧ has f Lex.fAttribute = false ∧
      (∀ s : St, Here e s (f :: n :: tl ++ (next ++ more)) rest → operatorComes e s = .ok (false, s)) ∧
      ∀ (s : St) (a sq : Nat), 0 < a → a ≤ s.heap.next → SpecsIn a s.heap.next s.heap sq specs → Here e s (f :: n :: tl ++ (next ++ more)) rest →
        GivesFrom a (opFnOrVar (specs.contains .Consteval) 0 sq) e s (f :: n :: tl).length y := by
  cases hD with
  | @var specs type name hs tail vs u hH hc hl hL hu hp hmac hcm =>
    obtain ⟨hs1, hs2, hs3, hT, hv, hN⟩ := hH
    rename_i ss tspecs tname ts ns
    obtain ⟨f, tl, hf1, hf2, hf3⟩ := hT.starts
    obtain ⟨i, il, yy, hi1, hi2⟩ := hN.first
    obtain ⟨n, nl, hn1, hn2⟩ : ∃ n nl, tl ++ ns = n :: nl ∧ n.type ≠ .Paren_Open := by
      cases tl with
      | nil => exact ⟨i, il, hi1, hN.plain i (by rw [hi1]; exact List.mem_cons_self ..)⟩
      | cons n nl => exact ⟨n, nl ++ ns, rfl, hT.plain n (by rw [hf1]; simp)⟩
    have hall : ts ++ (ns ++ (vs ++ [u])) = f :: n :: (nl ++ (vs ++ [u])) := by
      rw [hf1, List.cons_append, ← List.append_assoc tl, hn1]
      rfl
    refine ⟨specs, ss, f, n, nl ++ (vs ++ [u]), ?_, hs1, hs2, hs3, hl, hf3, hf2, fun hh => hv hh f (by rw [hf1]; rfl), hn2, fun ok hok => ?_, ?_, fun s h => ?_, fun s a sq h0 han hS h => ?_⟩
    · rw [← hall]; simp
    · obtain ⟨f', tl', g1, g2, -, -⟩ := hT.stops hok
      rw [hf1] at g1
      obtain ⟨rfl, -⟩ := List.cons.inj g1
      exact g2
    · obtain ⟨f', tl', g1, -, -, g2⟩ := hT.stops (ok := orConst []) rfl
      rw [hf1] at g1
      obtain ⟨rfl, -⟩ := List.cons.inj g1
      exact g2
    · rw [← hall] at h
      exact operatorComes_type hT hN (by simpa using h)
    · rw [← hall] at h ⊢
      have h : Here e s (ts ++ (ns ++ (vs ++ u :: (next ++ more)))) rest := by simpa using h
      have hcon : specs.contains .Consteval = false := by simpa using hc
      rw [hcon]
      have := opFnOrVar_var (specs := specs) hT hN hL hu hp ?_ ?_ ?_ h0 han hS h
      · simpa using this
      · intro t ht
        cases vs with
        | cons v vs =>
          refine hmac t ?_
          cases vs with
          | nil => exact ht
          | cons w vs => exact ht
        | nil =>
          cases next with
          | cons v next => exact hmac t ht
          | nil => exact (hm t (by rw [List.head?_eq_getElem?]; exact ht)).2
      · intro t ht
        cases next with
        | cons v next => exact hcm t ht
        | nil =>
          cases more with
          | nil => cases ht
          | cons v more => exact fun hh => (hm t ht).1 hh.1
      · simp at hr ⊢; omega
  | @fn lead type name hs px ps trail qs z es hH hv0 hn0 hne hP hP2 hQ hQ2 hml hl hE hc =>
    obtain ⟨hs1, hs2, hs3, hT, hv, hN⟩ := hH
    rename_i ss tspecs tname ts ns
    obtain ⟨f, tl, hf1, hf2, hf3⟩ := hT.starts
    obtain ⟨i, il, yy, hi1, hi2⟩ := hN.first
    obtain ⟨n, nl, hn1, hn2⟩ : ∃ n nl, tl ++ ns = n :: nl ∧ n.type ≠ .Paren_Open := by
      cases tl with
      | nil => exact ⟨i, il, hi1, hN.plain i (by rw [hi1]; exact List.mem_cons_self ..)⟩
      | cons n nl => exact ⟨n, nl ++ ns, rfl, hT.plain n (by rw [hf1]; simp)⟩
    have hall : ts ++ (ns ++ (ps ++ (qs ++ es))) = f :: n :: (nl ++ (ps ++ (qs ++ es))) := by
      rw [hf1, List.cons_append, ← List.append_assoc tl, hn1]
      rfl
    refine ⟨lead, ss, f, n, nl ++ (ps ++ (qs ++ es)), ?_, hs1, hs2, hs3, by omega, hf3, hf2, fun hh => hv hh f (by rw [hf1]; rfl), hn2, fun ok hok => ?_, ?_, fun s h => ?_, fun s a sq h0 han hS h => ?_⟩
    · rw [← hall]; simp
    · obtain ⟨f', tl', g1, g2, -, -⟩ := hT.stops hok
      rw [hf1] at g1
      obtain ⟨rfl, -⟩ := List.cons.inj g1
      exact g2
    · obtain ⟨f', tl', g1, -, -, g2⟩ := hT.stops (ok := orConst []) rfl
      rw [hf1] at g1
      obtain ⟨rfl, -⟩ := List.cons.inj g1
      exact g2
    · rw [← hall] at h
      exact operatorComes_type hT hN (by simpa using h)
    · rw [← hall] at h ⊢
      have h : Here e s (ts ++ (ns ++ (ps ++ (qs ++ (es ++ (next ++ more)))))) rest := by simpa using h
      have hlead : ∀ x ∈ lead, specIsTrailing x = false ∧ x ≠ .Pure ∧ x ≠ .Delete := by
        intro x hx
        have h1 := hs2 x hx
        have h2 : x ≠ .Volatile := fun hh => hv0 (hh ▸ hx)
        revert h1 h2
        cases k <;> cases x <;> decide
      have := opFnOrVar_fn (lead := lead) (ex := lead.contains .Consteval) hT hN hn0 hne hP hP2 hQ hQ2 hml hl hlead hE ?_ h0 han hS h
      · simpa using this
      · intro u hu hut
        obtain ⟨t, ht⟩ : ∃ t, (next ++ more ++ rest).head? = some t := by
          cases hq : next ++ more ++ rest with
          | nil => simp at hq; simp [hq] at hr
          | cons t l => exact ⟨t, rfl⟩
        refine ⟨t, ht, fun hh => ?_⟩
        have hes : es = [u] := by
          cases hE with
          | decl => cases hu; rfl
          | body hb => cases hb with
            | empty _ hz =>
              have hu := Option.some.inj hu
              rw [← hu] at hut
              have := hut.symm.trans hz.type
              cases this
            | @text o vs z _ _ _ _ _ hz =>
              rw [List.getLast?_append] at hu
              have hu := Option.some.inj hu
              rw [← hu] at hut
              have := hut.symm.trans hz.type
              cases this
        cases next with
        | cons v next => exact hc u hes t ht hh
        | nil => exact (hm t ht).1 hh.1

theorem memberDecl_run {f n : Tok} {tl : List Tok} {nm : Txt} {ex : Bool} {sq : Nat} (hf : isFmt f = false) (hn : n.type ≠ .Paren_Open) (h : Here e s (f :: n :: tl) rest) :
    memberDecl nm ex 0 sq e s = opFnOrVar ex 0 sq e s := by
  unfold memberDecl
  have hnl : f.type ≠ .NewLine := fun hh => by unfold isFmt at hf; simp [hh] at hf
  refine bind_run (h.nextTok hnl rfl) ?_
  refine bind_run (h.cur hf) ?_
  simp only [hn, false_and, if_false]

theorem classMember_decl {r : Rec} {nm : Txt} {ty : TokType} (h : ty ∈ typeStarts) (h2 : ty ∉ vendorTypes) : classMember r nm ty = memberDecl nm false 0 0 := by
  revert h h2
  cases ty <;> first | exact fun _ _ => rfl | (intro h h2; exact absurd h (by decide)) | (intro h h2; exact absurd h2 (by decide))

theorem classMember_spec {r : Rec} {nm : Txt} {x : Specifier} (h : x ∈ firstSpecs .record) : classMember r nm (specTok x) = memberSpecified nm 0 := by
  revert h
  cases x <;> first | exact fun _ => rfl | (intro h; exact absurd h (by decide))

theorem memberSpecs_ok {l : List Specifier} (h : ∀ x ∈ l, x ∈ placeSpecs .record) : ∀ x ∈ l, orConst memberSpecs x = some (some true) := by
  intro x hx
  have := h x hx
  revert this
  cases x <;> decide

/-- A declaration among the members of a class or struct. -/
theorem member_run {next : List Tok} {y : Bytes} {us : List Tok} {r : Rec} {nm : Txt} (hD : DeclToks e.ms e.mem .record next y us)
    (hr : 2 ≤ (more ++ rest).length) (hm : ∀ t, (more ++ rest).head? = some t → t.type ≠ .Comment ∧ t.type ≠ .Preprocess_Macro_Expr)
    (hn : 0 < s.heap.next) (h : Here e s (us ++ (next ++ more)) rest) :
    ∃ f tl, us = f :: tl ∧ isFmt f = false ∧ f.type ∉ [TokType.Statement_End, .Preprocess_Hash, .BraceCurly_Close] ∧ Gives (classMember r nm f.type) e s us.length y := by
  obtain ⟨specs, ss, f, n, tl, rfl, h1, h2, h3, hl, h4, h5, h6, h7, h8, h9, -, h10⟩ := hD.split hr hm
  cases h1 with
  | nil =>
    refine ⟨f, n :: tl, rfl, h5, ?_, ?_⟩
    · intro hh
      have := h4
      revert hh this
      cases f.type <;> decide
    · rw [List.nil_append] at h ⊢
      obtain ⟨p, h', r1, r2⟩ := h10 s s.heap.next 0 hn (Nat.le_refl _) (by unfold SpecsIn; simp) h
      rw [classMember_decl h4 (h6 rfl)]
      refine ⟨p, h', ?_, r2⟩
      rw [memberDecl_run h5 h7 h]
      exact r1
  | @cons x l t ss hx hs =>
    refine ⟨t, _, rfl, specTok_fmt x hx.type, ?_, ?_⟩
    · rw [hx.type]
      cases x <;> decide
    · rw [hx.type, classMember_spec (h3 x rfl)]
      have h : Here e s (t :: ss ++ (f :: n :: (tl ++ (next ++ more)))) rest := by simpa using h
      have r1 := specifiersLoop_run (.cons hx hs) (memberSpecs_ok h2) h (h8 _ rfl) (found := []) (by rw [List.length_nil]; omega)
      rw [List.nil_append] at r1
      obtain ⟨sq, g, r2, k2, n2, q2⟩ := specsOf_run (e := e) (s := s.adv (t :: ss).length) (l := x :: l) hn hl
      have n2 : s.heap.next ≤ g.next := n2
      have hh : Here e ⟨s.idx + (t :: ss).length, g, s.scope⟩ (f :: n :: (tl ++ (next ++ more))) rest := h.advN.at rfl
      obtain ⟨p, h', r3, r4, r5⟩ := h10 ⟨s.idx + (t :: ss).length, g, s.scope⟩ s.heap.next sq hn n2 q2 (by simpa using hh)
      refine ⟨p, h', ?_, (agree_kept (Nat.succ_pos _) (Nat.le_refl _) k2).trans r4, r5⟩
      unfold memberSpecified
      refine bind_run r1 ?_
      refine bind_run r2 ?_
      refine bind_run (a := 0) (s' := ⟨s.idx + (t :: ss).length, g, s.scope⟩) ?_ ?_
      · unfold attributesAgain
        refine bind_run (hh.cur h5) ?_
        simp only [h9, Bool.false_eq_true, if_false]
        rfl
      refine bind_run (hh.cur h5) ?_
      have hop : f.type ≠ .Operator := starts_ne h4 (by decide)
      have hdo : f.type ≠ .Decl_Operator := starts_ne h4 (by decide)
      simp only [hop, if_false]
      refine bind_run (pureP _ _ _) ?_
      simp only [Bool.false_eq_true, if_false, hdo]
      rw [memberDecl_run h5 h7 hh, r3]
      simp [Nat.add_assoc]
      omega

end Verif.Parse
