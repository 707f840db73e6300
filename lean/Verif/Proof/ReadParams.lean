import Verif.Proof.ReadVariable
import Verif.Props.ReadFnSpec
/-!
# Running the parser on the tokens of parameters
-/
namespace Verif.Parse
open Verif.Lex (Tok)
open Verif.Ast P
open Verif.Ser hiding Env boundsText isNext

variable {e : Env} {s : St} {t u : Tok} {ts vs more rest : List Tok} {x name : Bytes} {a b : Nat}

/-- The node `p`, one of those from `a` to `b`, prints as `t` by itself, whatever becomes of the other nodes. -/
structure Stands (f : Fn) (a b : Nat) (h : Heap) (p : Nat) (t : Bytes) : Prop where
  lo : a ≤ p
  hi : p < b
  says : ∀ E : Ser.Env, Agree a b h E.h → Says E f p t

theorem Stands.agree {f : Fn} {h g : Heap} {p : Nat} {a' b' : Nat} (hs : Stands f a b h p x) (ha : Agree a b h g) (h1 : a' ≤ a) (h2 : b ≤ b') : Stands f a' b' g p x :=
  ⟨Nat.le_trans h1 hs.lo, Nat.lt_of_lt_of_le hs.hi h2, fun E hE => hs.says E (ha.trans (hE.mono h1 h2))⟩

theorem type_stands {h : Heap} {p body : Nat} {l : List Specifier} (ht : IsType a b h p name l body) (h0 : 0 < a) (hne : name ≠ []) :
    Stands .typename a b h p (typeText name l) :=
  ⟨ht.lo, ht.hi, fun _ hE => type_says (ht.agree hE) hE.live h0 hne⟩

theorem text_stands {h : Heap} {q : Nat} (h1 : a ≤ q) (h2 : q < b) (hc : h.cell q = textNode x) : Stands .code a b h q x :=
  ⟨h1, h2, fun _ hE _ => text_prints hE.live h1 h2 ((hE q h1 h2).2.trans hc) rfl rfl⟩

/-! ## Default values -/

theorem tokOp (h : TokIs e.mem t ty fl [c]) : Parse.chr t 0 e s = .ok (c, s) := h.chr rfl

theorem tidied_strip {raw : Bytes} (h : Tidied raw x) : Strip.strip raw = .ok x ∧ x ≠ [] := by
  obtain ⟨w, g, hw, hg, hraw, hx⟩ := h
  refine ⟨by rw [hraw, hx]; exact (Strip.C55_words hw hg).1, ?_⟩
  rw [hx]
  intro hh
  obtain ⟨⟨c, hc, -⟩, -⟩ := hw.ends
  rw [List.append_eq_nil_iff] at hh
  rw [hh.1] at hc
  cases hc

theorem valueFold (a : Nat) : ∀ (vs : List Tok) (x : (Int × Int) × Txt),
    vs.foldl (fun (x : (Int × Int) × Txt) t => ((if t.type ∈ [TokType.Paren_Open] then x.1.1 + 1 else if t.type ∈ [TokType.Paren_Close] then x.1.1 - 1 else x.1.1, x.1.2), span a t)) x =
      ((depth [.Paren_Open] [.Paren_Close] vs x.1.1, x.1.2), match vs.getLast? with | none => x.2 | some t => span a t)
  | [], _ => rfl
  | t :: vs, x => by
    rw [List.foldl_cons, valueFold a vs]
    cases vs with
    | nil => rfl
    | cons u vs =>
      rw [List.getLast?_cons_cons]
      cases hq : (u :: vs).getLast? with
      | none => rw [List.getLast?_eq_none_iff] at hq; cases hq
      | some _ => rfl

/-- What follows a parameter. -/
def ParamEnd (tmpl : Bool) (c : Bytes) (u : Tok) : Prop :=
  TokIs c u .Comma 1 b!"," ∨ (tmpl = false ∧ TokIs c u .Paren_Close 0 b!")") ∨ (tmpl = true ∧ TokIs c u .Operator 1 b!">")

theorem ParamEnd.fmt {tmpl : Bool} {c : Bytes} (h : ParamEnd tmpl c u) : isFmt u = false := by
  rcases h with h | ⟨-, h⟩ | ⟨-, h⟩ <;> exact (h.code (by decide) (by decide)).fmt

theorem valueGoesOn_go {tmpl : Bool} {cl : Int} {b : UInt8} (h : Here e s (t :: more) rest) (hc : Code t) (hb : e.mem[t.start]? = some b) (hb2 : b ≠ 62)
    (hcl : t.type = .Comma ∨ t.type = .Paren_Close → 0 < cl) : valueGoesOn tmpl (cl, 0) e s = .ok (true, s) := by
  unfold valueGoesOn
  have key : ∃ r, valueHere tmpl 0 e s = .ok (r, s) ∧ (r = true ∨ cl > 0) := by
    unfold valueHere
    by_cases h1 : t.type = .Comma
    · refine ⟨false, bind_run (h.leftAnd hc.fmt _) ?_, .inr (hcl (.inl h1))⟩
      simp only [h1, ne_eq, not_true_eq_false, decide_false, Bool.false_eq_true, if_false]
      rfl
    · have hc0 : Parse.chr t 0 e s = .ok (b, s) := by
        unfold Parse.chr
        rw [Nat.add_zero, hb]
        rfl
      cases tmpl with
      | true =>
        refine ⟨true, bind_run (h.leftAnd hc.fmt _) ?_, .inl rfl⟩
        simp only [h1, ne_eq, not_false_eq_true, decide_true, if_true, ge_iff_le, Int.le_refl]
        refine bind_run (h.cur hc.fmt) ?_
        unfold notEndParams
        refine bind_run hc0 ?_
        simp [hb2]
      | false =>
        refine ⟨decide (t.type ≠ .Paren_Close), bind_run (h.leftAnd hc.fmt _) ?_, ?_⟩
        · simp only [h1, ne_eq, not_false_eq_true, decide_true, if_true, ge_iff_le, Int.le_refl]
          refine bind_run (h.cur hc.fmt) ?_
          rfl
        · by_cases h2 : t.type = .Paren_Close
          · exact .inr (hcl (.inr h2))
          · exact .inl (by simp [h2])
  obtain ⟨r, hr, ho⟩ := key
  refine bind_run hr ?_
  rw [pureP]
  rcases ho with rfl | ho
  · simp
  · simp [ho]

theorem valueGoesOn_end {tmpl : Bool} (hu : ParamEnd tmpl e.mem u) (h : Here e s (u :: more) rest) : valueGoesOn tmpl (0, 0) e s = .ok (false, s) := by
  unfold valueGoesOn
  refine bind_run (a := false) (s' := s) ?_ rfl
  unfold valueHere
  refine bind_run (h.leftAnd hu.fmt _) ?_
  rcases hu with hu | ⟨rfl, hu⟩ | ⟨rfl, hu⟩
  · simp only [hu.type, ne_eq, not_true_eq_false, decide_false, Bool.false_eq_true, if_false]
    rfl
  · have hf := (hu.code (by decide) (by decide)).fmt
    simp only [hu.type, ne_eq, reduceCtorEq, not_false_eq_true, decide_true, if_true, ge_iff_le, Int.le_refl]
    refine bind_run (h.cur hf) ?_
    unfold notEndParams
    simp only [hu.type, ne_eq, not_true_eq_false, decide_false, Bool.false_eq_true, if_false]
    rfl
  · have hf := (hu.code (by decide) (by decide)).fmt
    simp only [hu.type, ne_eq, reduceCtorEq, not_false_eq_true, decide_true, if_true, ge_iff_le, Int.le_refl]
    refine bind_run (h.cur hf) ?_
    unfold notEndParams
    refine bind_run (tokOp hu) ?_
    rfl

theorem paramValue_run {tmpl : Bool} {q : Tok} {raw : Bytes} (hq : TokIs e.mem q .Operator 3 b!"=") (hv : DefaultValue e.mem vs) (hx : Spans e.mem vs raw) (ht : Tidied raw x)
    (hu : ParamEnd tmpl e.mem u) (hn : 0 < s.heap.next) (h : Here e s (q :: vs ++ u :: more) rest) :
    paramValue tmpl e s = .ok (s.heap.next, ⟨s.idx + (q :: vs).length, grown s.heap (textNode x), s.scope⟩) := by
  obtain ⟨v, l, hvl⟩ : ∃ v l, vs = v :: l := by
    obtain ⟨f, l, hf, -⟩ := hx.text
    cases vs with
    | nil => cases hf
    | cons v l => exact ⟨v, l, rfl⟩
  obtain ⟨hst, hne⟩ := tidied_strip ht
  have hqc := hq.code (by decide) (by decide)
  have heat := h.eat
  rw [hq.type] at heat
  have h1 := h.tail
  have hvc := hv.1 [] v l hvl
  unfold paramValue
  refine bind_run (h.cur hqc.fmt) ?_
  simp only [show has q Lex.fAssign = true by unfold has; rw [hq.flags]; rfl, Bool.not_true, Bool.false_eq_true, if_false]
  refine bind_run heat ?_
  refine bind_run (Here.cur (by rw [hvl] at h1; exact h1) hvc.1.fmt) ?_
  have hvn : v.type ≠ .Comma := fun hh => absurd (hvc.2.2 (.inl hh)) (by simp [depth])
  simp only [hvn, if_false]
  refine bind_run (a := ((0, 0), ⟨v.start, raw.length⟩)) (s' := ⟨s.idx + (q :: vs).length, s.heap, s.scope⟩) ?_ ?_
  · have hidx : (s.adv 1).adv vs.length = ⟨s.idx + (q :: vs).length, s.heap, s.scope⟩ := by
      rw [St.adv_adv, List.length_cons, Nat.add_comm 1]
      rfl
    have hend : vs.foldl (fun (x : (Int × Int) × Txt) t => ((if t.type ∈ [TokType.Paren_Open] then x.1.1 + 1 else if t.type ∈ [TokType.Paren_Close] then x.1.1 - 1 else x.1.1, x.1.2), span v.start t))
        ((0, 0), .of v) = ((0, 0), ⟨v.start, raw.length⟩) := by
      rw [valueFold, hv.2]
      obtain ⟨f, z, hf, hz, hlen, -⟩ := hx.text
      rw [hvl] at hf
      cases hf
      rw [hz]
      simp only [span, hlen]
    rw [← hend, ← hidx]
    refine loop_toks ?_ ?_ h1
    · intro pre t post s hp h
      obtain ⟨h2, ⟨b, hb, hb1, hb2, hb3⟩, h4⟩ := hv.1 pre t post hp
      rw [valueFold]
      simp only []
      obtain ⟨d, hd⟩ : ∃ d, d = depth [.Paren_Open] [.Paren_Close] pre 0 := ⟨_, rfl⟩
      rw [← hd] at h4 ⊢
      obtain ⟨tx, htx⟩ : ∃ tx, tx = (match pre.getLast? with | none => Txt.of v | some t => span v.start t) := ⟨_, rfl⟩
      rw [← htx]
      refine bind_run (valueGoesOn_go h h2 hb hb2 h4) ?_
      simp only [if_true]
      refine bind_run (h.cur h2.fmt) ?_
      have hc0 : Parse.chr t 0 e s = .ok (b, s) := by
        unfold Parse.chr
        rw [Nat.add_zero, hb]
        rfl
      refine bind_run hc0 ?_
      refine ite_bind (bind_run (a := if t.type = .Operator then (e.mem[t.start + 1]?).getD 0 else 0) (s' := s) ?_ ?_)
      · by_cases ho : t.type = .Operator
        · obtain ⟨b1, hb4, -⟩ := hb3 ho
          rw [iteP, if_pos ho, if_pos ho]
          unfold Parse.chr
          rw [hb4]
          rfl
        · rw [iteP, if_neg ho, if_neg ho]
          rfl
      · have hop : ¬ (t.type = .Operator ∧ (if t.type = .Operator then (e.mem[t.start + 1]?).getD 0 else 0) = 62) := by
          rintro ⟨ho, h6⟩
          obtain ⟨b1, hb4, hb5⟩ := hb3 ho
          rw [if_pos ho, hb4] at h6
          exact hb5 h6
        simp only [hb1, hb2, hop, if_false]
        refine bind_run h.eat ?_
        rw [pureP]
        simp only [List.mem_singleton]
        by_cases h5 : t.type = .Paren_Open
        · simp [h5]
        · by_cases h6 : t.type = .Paren_Close <;> simp [h5, h6]
    · intro s h
      rw [valueFold, hv.2]
      simp only []
      refine bind_run (valueGoesOn_end hu h) ?_
      simp only [Bool.false_eq_true, if_false]
      rfl
  · refine bind_run (by rw [hvl] at hx; exact spanBytes hx) ?_
    refine bind_run (a := x) (s' := ⟨s.idx + (q :: vs).length, s.heap, s.scope⟩) ?_ ?_
    · unfold stripped P.res
      rw [hst]
      rfl
    · show (untypedStr e.cfg s.heap x).bind _ = _
      unfold untypedStr guardName
      rw [if_neg hne, finish_eq hn]
      rfl

/-! ## One parameter -/

theorem ParamEnd.ends {tmpl : Bool} {c : Bytes} (h : ParamEnd tmpl c u) : Ends c u ∧ has u Lex.fIdentifier = false ∧ has u Lex.fAssign = false ∧ u.type ≠ .Identifier ∧
    u.type ≠ .Preprocess_Macro_Expr := by
  rcases h with h | ⟨-, h⟩ | ⟨-, h⟩
  all_goals
    have h1 := h.type
    have h2 := h.flags
    refine ⟨⟨(h.code (by decide) (by decide)).fmt, by unfold has; rw [h2]; rfl, by rw [h1]; decide, by rw [h1]; decide, by rw [h1]; rfl, by rw [h1]; decide,
      ?_⟩, by unfold has; rw [h2]; rfl, by unfold has; rw [h2]; rfl, by rw [h1]; decide, by rw [h1]; decide⟩
  · intro hh; rw [h1] at hh; cases hh
  · intro hh; rw [h1] at hh; cases hh
  · exact fun _ => ⟨62, h.byte0, by decide⟩

theorem macroExpr_none {m : Nat} (h : Here e s (t :: more) rest) (hf : isFmt t = false) (ht : t.type ≠ .Preprocess_Macro_Expr) : macroExpr m e s = .ok (m, s) := by
  unfold macroExpr
  refine bind_run (h.check hf _) ?_
  simp only [ht, decide_false, Bool.false_eq_true, if_false]
  rfl

/-- A value that is there or not. -/
def OptStands (f : Fn) (a b : Nat) (h : Heap) (p : Nat) (t : Bytes) : Prop := (p = 0 ∧ t = []) ∨ (t ≠ [] ∧ Stands f a b h p t)

theorem OptStands.agree {f : Fn} {h g : Heap} {p : Nat} {a' b' : Nat} (hs : OptStands f a b h p x) (ha : Agree a b h g) (h1 : a' ≤ a) (h2 : b ≤ b') : OptStands f a' b' g p x :=
  hs.imp id fun hh => ⟨hh.1, hh.2.agree ha h1 h2⟩

theorem valueOpt_run {tmpl : Bool} {c : Bytes} (he : e.mem = c) (hv : ParamValue c x vs) (hu : ParamEnd tmpl c u) (hn : 0 < s.heap.next) (h : Here e s (vs ++ u :: more) rest) :
    ∃ p h', paramValue tmpl e s = .ok (p, ⟨s.idx + vs.length, h', s.scope⟩) ∧ Kept s.heap h' ∧ s.heap.next ≤ h'.next ∧
      OptStands .code s.heap.next h'.next h' p x := by
  subst he
  cases hv with
  | none =>
    refine ⟨0, s.heap, ?_, Kept.refl _, Nat.le_refl _, .inl ⟨rfl, rfl⟩⟩
    unfold paramValue
    refine bind_run (h.cur hu.ends.1.fmt) ?_
    simp only [hu.ends.2.2.1, Bool.not_false, if_true]
    rfl
  | value hq hd hx ht =>
    exact ⟨_, _, paramValue_run hq hd hx ht hu hn h, kept_grown _ _, Nat.le_succ _,
      .inr ⟨(tidied_strip ht).2, text_stands (Nat.le_refl _) (Nat.lt_succ_self _) (by simp [grown])⟩⟩

theorem nameOpt_run (hv : ParamName e.mem x vs) (ht : isFmt t = false) (h1 : t.type ≠ .Identifier) (h2 : has t Lex.fIdentifier = false) (h : Here e s (vs ++ t :: more) rest) :
    paramName e s = .ok (x, s.adv vs.length) := by
  unfold paramName
  cases hv with
  | none =>
    refine bind_run (h.check ht _) ?_
    refine bind_run (h.cur ht) ?_
    simp only [h1, h2, decide_false, Bool.false_eq_true, or_self, if_false]
    rfl
  | name hi =>
    have h' := h
    rw [List.cons_append] at h'
    refine bind_run (h'.check hi.fmt _) ?_
    refine bind_run (h'.cur hi.fmt) ?_
    simp only [hi.1.type, decide_true, true_or, if_true]
    refine bind_run (h'.cur hi.fmt) ?_
    refine bind_run h'.eat ?_
    exact hi.1.bytesP

/-- What has been read of one parameter. -/
structure ParamRead (a b : Nat) (h : Heap) (v : ParamVars) (x : Bytes) : Prop where
  mac : v.mac = 0
  post : v.post = 0
  parts : ∃ tt vt, Stands .typename a b h v.type tt ∧ OptStands .code a b h v.value vt ∧ x = b!" " ++ tt ++ after b!" " v.name ++ after b!" = " vt

/-- A parameter, of a function or of a template. -/
def AnyParam (tmpl : Bool) (c : Bytes) : Bytes → List Tok → Prop :=
  match tmpl with
  | true => TemplateParam c
  | false => ParamToks c

/-- The types of the tokens a type starts with. -/
abbrev typeStarts : List TokType := .Spec_Const :: .Identifier :: builtinTypes

theorem TypeToks.starts {c : Bytes} {l : List Specifier} (hT : TypeToks c l name ts) : ∃ f tl, ts = f :: tl ∧ isFmt f = false ∧ f.type ∈ typeStarts := by
  obtain ⟨f, fl, e1, e2, -, -⟩ := hT.first
  refine ⟨f, fl, e1, e2, ?_⟩
  obtain ⟨hp1, hp2, hns, -, -, -, -⟩ := hT
  cases hp1 with
  | nil =>
    cases hns with
    | ident hq =>
      obtain ⟨f', l', y, hfl, hf⟩ := hq.first
      rw [hfl] at e1
      obtain ⟨rfl, rfl⟩ := List.cons.inj e1
      rw [hf.1.type]; decide
    | native hf =>
      obtain ⟨rfl, rfl⟩ := List.cons.inj e1
      exact List.mem_cons_of_mem _ (List.mem_cons_of_mem _ (hf _ List.mem_cons_self))
  | @cons y l t ts hx _ =>
    obtain ⟨rfl, rfl⟩ := List.cons.inj e1
    rw [hx.type, hp2 y List.mem_cons_self]
    decide

theorem starts_ne {ty : TokType} {t : Tok} {l : List TokType} (h : t.type ∈ l) (hn : ty ∉ l) : t.type ≠ ty := fun hh => hn (hh ▸ h)

/-- The types of the tokens a parameter starts with. -/
abbrev paramStarts : List TokType := .Decl_Class :: .Type_Typename :: typeStarts

theorem TypeWord.tok {c w : Bytes} (h : TypeWord c t w) : (t.type = .Decl_Class ∨ t.type = .Type_Typename) ∧ t.flags = 0 ∧ isFmt t = false ∧ (∀ (e : Env) (s : St), e.mem = c → Parse.bytes (.of t) e s = .ok (w, s)) ∧
    Strip.strip w = .ok w ∧ w ≠ [] := by
  cases h with
  | cls h => exact ⟨.inl h.type, h.flags, (h.code (by decide) (by decide)).fmt, (by intro e s he; subst he; exact h.bytesP), (by decide +kernel), (by decide)⟩
  | typename h => exact ⟨.inr h.type, h.flags, (h.code (by decide) (by decide)).fmt, (by intro e s he; subst he; exact h.bytesP), (by decide +kernel), (by decide)⟩

theorem typeWord_run {params : Bool → P Nat} {w : Bytes} {f : Tok} (hW : TypeWord e.mem f w) (h : Here e s (f :: t :: more) rest) (ht : Ends e.mem t) (hn : 0 < s.heap.next) :
    ∃ h', typeWith params true false e s = .ok ((s.heap.next, false), ⟨s.idx + 1, h', s.scope⟩) ∧ Kept s.heap h' ∧ s.heap.next < h'.next ∧
      IsType s.heap.next h'.next h' s.heap.next w [] 0 := by
  obtain ⟨w1, w2, w3, w4, w5, w6⟩ := hW.tok
  have h0 := h.heap s.heap (b!"parser_parse_type" :: s.scope)
  have hfa : has f Lex.fAttribute = false := by unfold has; rw [w2]; rfl
  have hfs : has f Lex.fSpecifier = false := by unfold has; rw [w2]; rfl
  have h1 := h0.tail
  have h1' : Here e ⟨s.idx + 1, s.heap, b!"parser_parse_type" :: s.scope⟩ (t :: more) rest := h1
  have heat := h0.eat
  have r2 : specifiersLoop typePrefix [] e ⟨s.idx, s.heap, b!"parser_parse_type" :: s.scope⟩ = .ok ([], ⟨s.idx, s.heap, b!"parser_parse_type" :: s.scope⟩) :=
    specifiersLoop_run (l := []) (ts := []) .nil (fun _ hh => nomatch hh) h0 ⟨w3, .inl hfs⟩ (found := []) (by simp)
  have r4 : specifiersLoop typeSuffix [] e ⟨s.idx + 1, s.heap, b!"parser_parse_type" :: s.scope⟩ = .ok ([], ⟨s.idx + 1, s.heap, b!"parser_parse_type" :: s.scope⟩) :=
    specifiersLoop_run (l := []) (ts := []) .nil (fun _ hh => nomatch hh) h1' ⟨ht.fmt, .inl ht.spec⟩ (found := []) (by simp)
  have r3 : typeName true e ⟨s.idx, s.heap, b!"parser_parse_type" :: s.scope⟩ = .ok ((w, 0), ⟨s.idx + 1, s.heap, b!"parser_parse_type" :: s.scope⟩) := by
    unfold typeName
    refine bind_run (h0.cur w3) ?_
    rcases w1 with w1 | w1
    · rw [w1] at heat
      simp only [w1, and_self, if_true]
      refine bind_run heat ?_
      exact bind_run (w4 _ _ rfl) rfl
    · rw [w1] at heat
      simp only [w1, reduceCtorEq, and_false, if_false, tagOf, ne_eq, not_true_eq_false, nativeType, Bool.false_eq_true, if_true]
      refine bind_run heat ?_
      exact bind_run (w4 _ _ rfl) rfl
  refine ⟨changed (grown s.heap { type := .Typename }) s.heap.next { type := .Typename, name := w }, inScope_run (sc := b!"parser_parse_type" :: s.scope) ?_ rfl, ?_, ?_, ?_⟩
  · refine bind_run (h0.attributes w3 hfa) ?_
    refine bind_run r2 ?_
    refine bind_run h0.left ?_
    simp only [Bool.not_true, Bool.false_eq_true, if_false]
    refine bind_run r3 ?_
    refine bind_run r4 ?_
    refine bind_run (functionType_none h1' ht (fun hh => by cases hh)) ?_
    refine bind_run (pureP _ _ _) ?_
    refine bind_run (h1'.check ht.fmt _) ?_
    simp only [ht.dots, decide_false, Bool.false_eq_true, if_false]
    refine bind_run (make_run (s := ⟨s.idx + 1, s.heap, b!"parser_parse_type" :: s.scope⟩) hn _) ?_
    refine bind_run (a := w) (s' := ⟨s.idx + 1, grown s.heap { type := .Typename }, b!"parser_parse_type" :: s.scope⟩) ?_ ?_
    · unfold stripped P.res
      rw [w5]
      rfl
    · refine bind_run (a := 0) (s' := ⟨s.idx + 1, grown s.heap { type := .Typename }, b!"parser_parse_type" :: s.scope⟩) rfl ?_
      refine bind_run (upd_run (s := ⟨s.idx + 1, grown s.heap { type := .Typename }, b!"parser_parse_type" :: s.scope⟩) ⟨hn, Nat.lt_succ_self _⟩) ?_
      have : (grown s.heap { type := .Typename }).cell s.heap.next = { type := .Typename } := by simp [grown]
      rw [this]
      rfl
  · exact kept_changed (kept_grown _ _) (Nat.le_refl _)
  · exact Nat.lt_succ_self _
  · refine ⟨Nat.le_refl _, Nat.lt_succ_self _, 0, ?_, ?_⟩
    · simp [changed]
    · unfold SpecsIn
      rw [if_pos rfl]

/-- The parts of a parameter. -/
theorem AnyParam.split {tmpl : Bool} (hP : AnyParam tmpl e.mem x ts) : ∃ tt ty ns vs name value, ts = ty ++ ns ++ vs ∧ ParamName e.mem name ns ∧ ParamValue e.mem value vs ∧
    x = b!" " ++ tt ++ after b!" " name ++ after b!" = " value ∧ (∃ f fl, ty = f :: fl ∧ isFmt f = false ∧ f.type ∈ paramStarts) ∧
    ∀ {ps : Bool → P Nat} {s : St} {k : Tok} {kl : List Tok}, 0 < s.heap.next → Here e s (ty ++ k :: kl) rest → Ends e.mem k →
      ∃ h', typeWith ps tmpl false e s = .ok ((s.heap.next, false), ⟨s.idx + ty.length, h', s.scope⟩) ∧ Kept s.heap h' ∧ s.heap.next < h'.next ∧
        Stands .typename s.heap.next h'.next h' s.heap.next tt := by
  have key : ∀ {x ts}, ParamToks e.mem x ts → ∃ tt ty ns vs name value, ts = ty ++ ns ++ vs ∧ ParamName e.mem name ns ∧ ParamValue e.mem value vs ∧
    x = b!" " ++ tt ++ after b!" " name ++ after b!" = " value ∧ (∃ f fl, ty = f :: fl ∧ isFmt f = false ∧ f.type ∈ paramStarts) ∧
    ∀ {ps : Bool → P Nat} {s : St} {k : Tok} {kl : List Tok}, 0 < s.heap.next → Here e s (ty ++ k :: kl) rest → Ends e.mem k →
      ∃ h', typeWith ps tmpl false e s = .ok ((s.heap.next, false), ⟨s.idx + ty.length, h', s.scope⟩) ∧ Kept s.heap h' ∧ s.heap.next < h'.next ∧
        Stands .typename s.heap.next h'.next h' s.heap.next tt := by
    intro x ts hP
    obtain ⟨hT, hN, hV⟩ := hP
    obtain ⟨f, fl, e1, e2, e3⟩ := hT.starts
    refine ⟨_, _, _, _, _, _, rfl, hN, hV, rfl, ⟨f, fl, e1, e2, List.mem_cons_of_mem _ (List.mem_cons_of_mem _ e3)⟩, ?_⟩
    intro ps s k kl hn h hk
    obtain ⟨-, -, -, -, -, htn⟩ := hT.first
    obtain ⟨h1, r1, k1, n1, q1⟩ := typeWith_run (params := ps) (tmpl := tmpl) hT h hk hn
    exact ⟨h1, r1, k1, n1, type_stands q1 hn htn⟩
  cases tmpl with
  | false => exact key hP
  | true =>
    cases hP with
    | value hP => exact key hP
    | @type t w name ns value vs hW hN hV =>
      obtain ⟨w1, w2, w3, w4, w5, w6⟩ := hW.tok
      refine ⟨w, [t], ns, vs, name, value, rfl, hN, hV, rfl, ⟨t, [], rfl, w3, by rcases w1 with w1 | w1 <;> rw [w1] <;> decide⟩, ?_⟩
      intro ps s k kl hn h hk
      obtain ⟨h1, r1, k1, n1, q1⟩ := typeWord_run (params := ps) hW h hk hn
      refine ⟨h1, r1, k1, n1, ?_⟩
      have := type_stands q1 hn w6
      rwa [show typeText w [] = w by simp [typeText]] at this

theorem AnyParam.first {tmpl : Bool} (hP : AnyParam tmpl e.mem x ts) : ∃ f tl, ts = f :: tl ∧ isFmt f = false ∧ f.type ∈ paramStarts := by
  obtain ⟨tt, ty, ns, vs, name, value, rfl, -, -, -, ⟨f, fl, rfl, h1, h2⟩, -⟩ := hP.split (rest := [])
  exact ⟨f, _, rfl, h1, h2⟩

theorem oneParam_run {tmpl : Bool} {ps : Bool → P Nat} {v : ParamVars} (hv : v.mac = 0 ∧ v.post = 0) (hP : AnyParam tmpl e.mem x ts) (hu : ParamEnd tmpl e.mem u) (hn : 0 < s.heap.next)
    (h : Here e s (ts ++ u :: more) rest) :
    ∃ v' h', oneParam (fun t => do return (← typeWith ps t false).1) tmpl v e s = .ok (v', ⟨s.idx + ts.length, h', s.scope⟩) ∧ Kept s.heap h' ∧
      s.heap.next < h'.next ∧ ParamRead s.heap.next h'.next h' v' x := by
  obtain ⟨tt, ty, ns, vs, name, value, rfl, hN, hV, rfl, ⟨f, fl, hf1, hf2, hf3⟩, hrun⟩ := hP.split (rest := rest)
  have h : Here e s (ty ++ (ns ++ (vs ++ u :: more))) rest := by simpa using h
  -- the token behind the name, and the one behind the type
  obtain ⟨g, gl, hg1, hg2, hg3, hg4, hg5⟩ : ∃ g gl, vs ++ u :: more = g :: gl ∧ Ends e.mem g ∧ g.type ≠ .Identifier ∧ has g Lex.fIdentifier = false ∧
      g.type ≠ .Preprocess_Macro_Expr := by
    cases hV with
    | none => exact ⟨u, more, rfl, hu.ends.1, hu.ends.2.2.2.1, hu.ends.2.1, hu.ends.2.2.2.2⟩
    | @value q _ _ _ hq =>
      have h1 := hq.type
      have h2 := hq.flags
      exact ⟨q, _, rfl, ⟨(hq.code (by decide) (by decide)).fmt, by unfold has; rw [h2]; rfl, by rw [h1]; decide, by rw [h1]; decide, by rw [h1]; rfl, by rw [h1]; decide,
        fun _ => ⟨61, hq.byte0, by decide⟩⟩, by rw [h1]; decide, by unfold has; rw [h2]; rfl, by rw [h1]; decide⟩
  obtain ⟨k, kl, hk1, hk2⟩ : ∃ k kl, ns ++ (vs ++ u :: more) = k :: kl ∧ Ends e.mem k := by
    cases hN with
    | none => exact ⟨g, gl, hg1, hg2⟩
    | name hi => exact ⟨_, _, rfl, hi.ends⟩
  have hf4 : f.type ≠ .Comma ∧ f.type ≠ .Preprocess_Macro_Expr := ⟨starts_ne hf3 (by decide), starts_ne hf3 (by decide)⟩
  have hf := h
  rw [hf1, List.cons_append] at hf
  have hk := h
  rw [hk1] at hk
  obtain ⟨h1, r1, k1, n1, q1⟩ := hrun (ps := ps) hn hk hk2
  have hh1 : Here e ⟨s.idx + ty.length, h1, s.scope⟩ (ns ++ (vs ++ u :: more)) rest := h.advN.at rfl
  have hh1' := hh1
  rw [hg1] at hh1'
  have r2 := nameOpt_run hN hg2.fmt hg3 hg4 hh1'
  have hh2 : Here e (St.adv ⟨s.idx + ty.length, h1, s.scope⟩ ns.length) (vs ++ u :: more) rest := hh1.advN
  have hh2' := hh2
  rw [hg1] at hh2'
  have r3 := macroExpr_none (m := 0) hh2' hg2.fmt hg5
  obtain ⟨p, h2, r4, k4, n4, q4⟩ := valueOpt_run rfl hV hu (s := St.adv ⟨s.idx + ty.length, h1, s.scope⟩ ns.length) (Nat.lt_trans hn n1) hh2
  have n4 : h1.next ≤ h2.next := n4
  have k4 : Kept h1 h2 := k4
  refine ⟨{ type := s.heap.next, value := p, name := name, mac := 0, post := 0 }, h2, ?_, k1.trans k4, by omega, rfl, rfl,
    _, _, q1.agree (agree_kept hn (Nat.le_refl _) k4) (Nat.le_refl _) n4, q4.agree (fun i (w1 : h1.next ≤ i) w2 => ⟨⟨?_, w2⟩, rfl⟩) (Nat.le_of_lt n1) (Nat.le_refl _), rfl⟩
  · unfold oneParam
    rw [hv.1]
    refine bind_run (macroExpr_none hf hf2 hf4.2) ?_
    refine bind_run (hf.cur hf2) ?_
    simp only [hf4.1, if_false]
    refine bind_run (bind_run r1 (pureP _ _ _)) ?_
    refine bind_run r2 ?_
    rw [hv.2]
    refine bind_run r3 ?_
    refine bind_run r4 ?_
    simp [Nat.add_assoc]
  · omega

/-! ## The list of parameters -/

/-- The same node, but for its place in a list. -/
def SameData (n m : Node) : Prop := m = { n with parent := m.parent, front := m.front, back := m.back, num := m.num }

theorem SameData.refl (n : Node) : SameData n n := rfl

theorem SameData.trans {n m k : Node} (h1 : SameData n m) (h2 : SameData m k) : SameData n k := by
  unfold SameData at *
  rw [h1] at h2
  exact h2

theorem sameData_upd (c : Nat → Node) (p : Nat) (f : Node → Node) (hf : ∀ n, SameData n (f n)) (q : Nat) : SameData (c q) (if q = p then f (c p) else c q) := by
  split
  · next hq => subst hq; exact hf _
  · exact .refl _

theorem paramsAppend_frame {h h' : Heap} {r p : Nat} (vr : h.Valid r) (vp : h.Valid p) (hne : p ≠ r) (hp0 : (h.cell p).parent = 0)
    (hf : (h.cell r).front = 0 ∨ h.Valid (h.cell r).front) (he : paramsAppend h r p = .ok h') :
    h'.next = h.next ∧ ∀ q, SameData (h.cell q) (h'.cell q) ∧ (q ≠ p → q ≠ r → q ≠ (h.cell r).front → h'.cell q = h.cell q) := by
  unfold paramsAppend at he
  rw [Res.assert_true (Nat.ne_of_gt vr.1), Res.ok_bind, Res.assert_true (Nat.ne_of_gt vp.1), Res.ok_bind, Res.assert_true (Ne.symm hne), Res.ok_bind, get_ok vp,
    Res.ok_bind, if_neg (by simp [hp0]), Res.ok_bind] at he
  simp only [] at he
  rw [upd_ok vp, Res.ok_bind, get_ok (by exact vr), Res.ok_bind] at he
  simp only [if_neg (Ne.symm hne)] at he
  by_cases h0 : (h.cell r).front = 0
  · rw [if_pos h0, upd_ok (by exact vr)] at he
    cases he
    refine ⟨rfl, fun q => ⟨?_, fun h1 h2 _ => ?_⟩⟩
    · by_cases h1 : q = r
      · subst h1; simp [SameData, Ne.symm hne]
      · by_cases h2 : q = p <;> simp [SameData, h1, h2, hne]
    · simp [h1, h2]
  · rw [if_neg h0] at he
    have hv := hf.resolve_left h0
    rw [upd_ok (by exact hv), Res.ok_bind, upd_ok (by exact vr)] at he
    cases he
    refine ⟨rfl, fun q => ⟨?_, fun h1 h2 h3 => ?_⟩⟩
    · exact ((sameData_upd h.cell p (fun n => { n with parent := r }) (fun _ => rfl) q).trans
        (sameData_upd _ (h.cell r).front (fun n => { n with back := p }) (fun _ => rfl) q)).trans
        (sameData_upd _ r (fun n => { n with front := p, num := n.num + 1 }) (fun _ => rfl) q)
    · simp [h1, h2, h3]

/-- The parameter `q`, whose parts are the nodes from `a` on, is printed as `x`. -/
structure Part (h : Heap) (a q : Nat) (x : Bytes) : Prop where
  le : a ≤ q
  type : (h.cell q).type = .Parameters
  mac : (h.cell q).params = 0
  post : (h.cell q).suffix = 0
  parts : ∃ tt vt, Stands .typename a q h (h.cell q).typ tt ∧ OptStands .code a q h (h.cell q).body vt ∧ x = b!" " ++ tt ++ after b!" " (h.cell q).name ++ after b!" = " vt

/-- The parameters `l`, one after the other between `a` and `b`. -/
def Items (h : Heap) : Nat → List Nat → List Bytes → Nat → Prop
  | a, [], [], b => a ≤ b
  | a, q :: l, x :: xs, b => Part h a q x ∧ Items h (q + 1) l xs b
  | _, _, _, _ => False

theorem Items.bounds {h : Heap} : ∀ {l : List Nat} {xs : List Bytes} {a : Nat}, Items h a l xs b → a ≤ b ∧ ∀ q ∈ l, a ≤ q ∧ q < b
  | [], [], _, hi => ⟨hi, fun _ hq => by cases hq⟩
  | q :: l, x :: xs, a, hi => by
    obtain ⟨h1, h2⟩ := hi
    obtain ⟨h3, h4⟩ := h2.bounds
    have := h1.le
    refine ⟨by omega, fun y hy => ?_⟩
    rcases List.mem_cons.1 hy with rfl | hy
    · omega
    · have := h4 y hy
      omega
  | [], _ :: _, _, hi => hi.elim
  | _ :: _, [], _, hi => hi.elim

theorem Part.frame {h g : Heap} {q : Nat} (hp : Part h a q x) (h1 : Agree a q h g) (h2 : SameData (h.cell q) (g.cell q)) : Part g a q x := by
  obtain ⟨p1, p2, p3, p4, tt, vt, p5, p6, p7⟩ := hp
  have e1 : (g.cell q).typ = (h.cell q).typ := by rw [h2]
  have e2 : (g.cell q).body = (h.cell q).body := by rw [h2]
  have e3 : (g.cell q).name = (h.cell q).name := by rw [h2]
  exact ⟨p1, by rw [h2]; exact p2, by rw [h2]; exact p3, by rw [h2]; exact p4, tt, vt, by rw [e1]; exact p5.agree h1 (Nat.le_refl _) (Nat.le_refl _),
    by rw [e2]; exact p6.agree h1 (Nat.le_refl _) (Nat.le_refl _), by rw [e3]; exact p7⟩

theorem Items.frame {h g : Heap} : ∀ {l : List Nat} {xs : List Bytes} {a : Nat}, Items h a l xs b →
    (∀ q, a ≤ q → q < b → g.Valid q ∧ SameData (h.cell q) (g.cell q) ∧ (q ∉ l → g.cell q = h.cell q)) → Items g a l xs b
  | [], [], _, hi, _ => hi
  | q :: l, x :: xs, a, hi, hc => by
    obtain ⟨h1, h2⟩ := hi
    obtain ⟨h3, h4⟩ := h2.bounds
    have hle := h1.le
    refine ⟨h1.frame (fun y hy1 hy2 => ?_) (hc q hle (by omega)).2.1, h2.frame fun y hy1 hy2 => ?_⟩
    · obtain ⟨c1, -, c3⟩ := hc y hy1 (by omega)
      refine ⟨c1, c3 fun hm => ?_⟩
      rcases List.mem_cons.1 hm with rfl | hm
      · omega
      · have := h4 y hm
        omega
    · obtain ⟨c1, c2, c3⟩ := hc y (by omega) hy2
      refine ⟨c1, c2, fun hm => c3 fun hm' => ?_⟩
      rcases List.mem_cons.1 hm' with rfl | hm'
      · omega
      · exact hm hm'
  | [], _ :: _, _, hi, _ => hi.elim
  | _ :: _, [], _, hi, _ => hi.elim

theorem Items.snoc {h : Heap} {p : Nat} : ∀ {l : List Nat} {xs : List Bytes} {a : Nat}, Items h a l xs b → Part h b p x → Items h a (l ++ [p]) (xs ++ [x]) (p + 1)
  | [], [], _, hi, hp => by
    have hi : _ ≤ b := hi
    obtain ⟨p1, p2, p3, p4, tt, vt, p5, p6, p7⟩ := hp
    refine ⟨⟨Nat.le_trans hi p1, p2, p3, p4, tt, vt, ?_, ?_, p7⟩, Nat.le_refl _⟩
    · exact ⟨Nat.le_trans hi p5.lo, p5.hi, fun E hE => p5.says E (hE.mono hi (Nat.le_refl _))⟩
    · exact p6.imp id fun hh => ⟨hh.1, Nat.le_trans hi hh.2.lo, hh.2.hi, fun E hE => hh.2.says E (hE.mono hi (Nat.le_refl _))⟩
  | _ :: _, _ :: _, _, hi, hp => ⟨hi.1, hi.2.snoc hp⟩
  | [], _ :: _, _, hi, _ => hi.elim
  | _ :: _, [], _, hi, _ => hi.elim

/-- The list of parameters `r`, made between `a` and `b`, with the texts `xs`. -/
def ParamsList (h : Heap) (a r : Nat) (xs : List Bytes) (b : Nat) : Prop :=
  ∃ l, IsParams h r l (l.length + 1) ∧ Items h a (r :: l) xs b ∧ ∀ q ∈ l, (h.cell q).num = 0

theorem IsParams.agree {h g : Heap} {r : Nat} {l : List Nat} {n : Int} (hp : IsParams h r l n) (hg : ∀ q, q = r ∨ q ∈ l → g.Valid q ∧ g.cell q = h.cell q) : IsParams g r l n := by
  have hr := hg r (.inl rfl)
  have hlast : l.getLast?.getD r = r ∨ l.getLast?.getD r ∈ l := by
    cases hq : l.getLast? with
    | none => exact .inl rfl
    | some x => exact .inr (List.mem_of_getLast? hq)
  refine ⟨Nat.lt_of_le_of_lt (Nat.zero_le _) hr.1.2, hr.1, by rw [hr.2]; exact hp.count, ?_, by rw [(hg _ hlast).2]; exact hp.ends, by rw [hr.2]; exact hp.first,
    by rw [hr.2]; exact hp.last, fun x hx => by rw [(hg x (.inr hx)).2]; exact hp.parents x hx, hp.self, hp.nodup⟩
  rw [hr.2]
  have key : ∀ {l : List Nat} {p : Nat}, (∀ q ∈ l, g.Valid q ∧ g.cell q = h.cell q) → Chain h p l → Chain g p l := by
    intro l
    induction l with
    | nil => intro p _ _; trivial
    | cons q l ih =>
      intro p hq ⟨c1, c2, c3⟩
      refine ⟨c1, (hq q List.mem_cons_self).1, ?_⟩
      rw [(hq q List.mem_cons_self).2]
      exact ih (fun y hy => hq y (List.mem_cons_of_mem _ hy)) c3
  exact key (fun q hq => hg q (.inr hq)) hp.chain

theorem ParamsList.agree {h g : Heap} {r : Nat} {xs : List Bytes} (hp : ParamsList h a r xs b) (ha : Agree a b h g) : ParamsList g a r xs b := by
  obtain ⟨l, h1, h2, h3⟩ := hp
  obtain ⟨-, hb⟩ := h2.bounds
  have hc : ∀ q, q = r ∨ q ∈ l → g.Valid q ∧ g.cell q = h.cell q := fun q hq => ha q (hb q (by simpa using hq)).1 (hb q (by simpa using hq)).2
  exact ⟨l, IsParams.agree h1 hc, h2.frame fun q q1 q2 => ⟨(ha q q1 q2).1, by rw [(ha q q1 q2).2]; exact .refl _, fun _ => (ha q q1 q2).2⟩,
    fun q hq => by rw [(hc q (.inr hq)).2]; exact h3 q hq⟩

theorem after_opt {p : Nat} {f : Fn} {h : Heap} {before : Bytes} (h0 : 0 < a) (hs : OptStands f a b h p x) : after before x = optText p (before ++ x) := by
  unfold after optText
  rcases hs with ⟨h1, h2⟩ | ⟨h1, h2⟩
  · simp [h1, h2]
  · have := h2.lo
    rw [if_neg h1, if_neg (by omega)]

theorem Part.text {E : Ser.Env} {q : Nat} {x : Bytes} (hp : Part E.h a q x) (h0 : 0 < a) (hf : Fits x) (hl : ∀ y, a ≤ y → y < q → E.h.Valid y) : ∃ tt vt,
    x = Ser.paramText E q (E.h.cell q) tt [] vt ∧ ((E.h.cell q).typ ≠ 0 → Prints E .typename (E.h.cell q).typ tt) ∧
    ((E.h.cell q).body ≠ 0 → Prints E .code (E.h.cell q).body vt) := by
  obtain ⟨p1, p2, p3, p4, tt, vt, p5, p6, p7⟩ := hp
  subst p7
  have hself : Agree a q E.h E.h := fun y h1 h2 => ⟨hl y h1 h2, rfl⟩
  have hf1 := (Fits.append (Fits.append (Fits.append hf).1).1).2
  have hty : (E.h.cell q).typ ≠ 0 := by have := p5.lo; omega
  refine ⟨tt, vt, ?_, fun _ => p5.says E hself hf1, fun hb => ?_⟩
  · rw [after_opt h0 p6]
    unfold Ser.paramText
    have hn : after b!" " (E.h.cell q).name = ifText ((E.h.cell q).name ≠ []) (b!" " ++ nameText E q) := by
      unfold after ifText
      by_cases hn : (E.h.cell q).name = []
      · simp [hn]
      · simp [hn, nameText_of hn]
    rw [hn, p3, p4]
    simp [optText, hty]
  · rcases p6 with ⟨h1, -⟩ | ⟨h1, h2⟩
    · exact absurd h1 hb
    · refine h2.says E hself ?_
      have := (Fits.append hf).2
      unfold after at this
      rw [if_neg h1] at this
      exact (Fits.append this).2

theorem Items.print {E : Ser.Env} : ∀ {l : List Nat} {xs : List Bytes} {a : Nat}, 0 < a → Items E.h a l xs b → (∀ y, a ≤ y → y < b → E.h.Valid y) →
    (∀ q ∈ l, (E.h.cell q).num = 0) → (∀ x ∈ xs, Fits x) → PrintAll E .params l xs
  | [], [], _, _, _, _, _, _ => trivial
  | q :: l, x :: xs, a, h0, hi, hl, hn, hf => by
    obtain ⟨h1, h2⟩ := hi
    obtain ⟨h3, -⟩ := h2.bounds
    have := h1.le
    obtain ⟨tt, vt, e1, e2, e3⟩ := h1.text h0 (hf x List.mem_cons_self) (fun y y1 y2 => hl y y1 (by omega))
    refine ⟨?_, Items.print (Nat.succ_pos _) h2 (fun y y1 y2 => hl y (by omega) y2) (fun q hq => hn q (List.mem_cons_of_mem _ hq)) (fun x hx => hf x (List.mem_cons_of_mem _ hx))⟩
    have hfx := hf x List.mem_cons_self
    rw [e1] at hfx ⊢
    exact C47_param (hl q this (by omega)) rfl (by rw [hn q List.mem_cons_self]; decide) (by rw [h1.mac]; exact fun hh => absurd rfl hh) e2
      (by rw [h1.post]; exact fun hh => absurd rfl hh) e3 hfx
  | [], _ :: _, _, _, hi, _, _, _ => hi.elim
  | _ :: _, [], _, _, hi, _, _, _ => hi.elim

theorem fits_intercalate {sep : Bytes} : ∀ {xs : List Bytes}, Fits (sep.intercalate xs) → ∀ x ∈ xs, Fits x
  | [], _, _, hx => by cases hx
  | [y], hf, x, hx => by
    rw [List.mem_singleton] at hx
    subst hx
    simpa using hf
  | y :: z :: xs, hf, x, hx => by
    have : sep.intercalate (y :: z :: xs) = y ++ (sep ++ sep.intercalate (z :: xs)) := by
      simp [List.intercalate, List.intersperse]
    rw [this] at hf
    rcases List.mem_cons.1 hx with rfl | hx
    · exact (Fits.append hf).1
    · exact fits_intercalate (Fits.append (Fits.append hf).2).2 x hx

theorem params_stands {h : Heap} {r : Nat} {xs : List Bytes} (hp : ParamsList h a r xs b) (h0 : 0 < a) : Stands .params a b h r (b!", ".intercalate xs) := by
  obtain ⟨-, hb⟩ := hp.choose_spec.2.1.bounds
  obtain ⟨hb1, hb2⟩ := hb r List.mem_cons_self
  refine ⟨hb1, hb2, fun E hE hf => ?_⟩
  obtain ⟨l, h1, h2, h3⟩ := hp.agree hE
  cases xs with
  | nil => exact h2.elim
  | cons x xs =>
    obtain ⟨h4, h5⟩ := h2
    obtain ⟨h6, -⟩ := h5.bounds
    have hle := h4.le
    have hfs := fits_intercalate hf
    obtain ⟨tt, vt, e1, e2, e3⟩ := h4.text h0 (hfs x List.mem_cons_self) (fun y y1 y2 => (hE y y1 (by omega)).1)
    have hpl := Items.print (Nat.succ_pos _) h5 (fun y y1 y2 => (hE y (by omega) y2).1) h3 (fun x hx => hfs x (List.mem_cons_of_mem _ hx))
    rw [e1] at hf ⊢
    exact C22_prints h1 (by rw [h4.mac]; exact fun hh => absurd rfl hh) e2 (by rw [h4.post]; exact fun hh => absurd rfl hh) e3 hpl hf

/-- The node that is made of what has been read. -/
theorem part_made {h : Heap} {v : ParamVars} {n : Node} (h0 : 0 < a) (hr : ParamRead a b h v x) (hb : h.next = b) (hn : n.type = .Parameters ∧ n.params = 0 ∧ n.suffix = 0 ∧
    n.typ = v.type ∧ n.body = v.value ∧ n.name = v.name) : Part (grown h n) a b x := by
  obtain ⟨h1, h2, tt, vt, h3, h4, h5⟩ := hr
  obtain ⟨n1, n2, n3, n4, n5, n6⟩ := hn
  have hc : (grown h n).cell b = n := by rw [← hb]; simp [grown]
  have hag : Agree a b h (grown h n) := agree_kept h0 (Nat.le_of_eq hb.symm) (kept_grown _ _)
  have hlo := h3.lo
  have hhi := h3.hi
  refine ⟨by omega, by rw [hc]; exact n1, by rw [hc]; exact n2, by rw [hc]; exact n3, tt, vt, ?_, ?_, ?_⟩
  · rw [hc, n4]; exact h3.agree hag (Nat.le_refl _) (Nat.le_refl _)
  · rw [hc, n5]; exact h4.agree hag (Nat.le_refl _) (Nat.le_refl _)
  · rw [hc, n6]; exact h5

/-- What closes the parameters. -/
def ParamClose (tmpl : Bool) (c : Bytes) (z : Tok) : Prop :=
  (tmpl = false ∧ TokIs c z .Paren_Close 0 b!")") ∨ (tmpl = true ∧ TokIs c z .Operator 1 b!">")

theorem MoreParams.next {tmpl : Bool} {P : Bytes → List Tok → Prop} {c : Bytes} {xs : List Bytes} {z : Tok} (hM : MoreParams c P xs ts) (hz : ParamClose tmpl c z) :
    ∃ u ul, ts ++ z :: more = u :: ul ∧ ParamEnd tmpl c u := by
  cases hM with
  | nil => exact ⟨z, more, rfl, .inr hz⟩
  | cons hu _ _ => exact ⟨_, _, rfl, .inl hu⟩

theorem ParamToks.first {c : Bytes} (hP : ParamToks c x ts) : ∃ f tl, ts = f :: tl ∧ isFmt f = false ∧ f.type ∈ typeStarts := by
  obtain ⟨hT, -, -⟩ := hP
  obtain ⟨f, fl, e1, e2, e3⟩ := hT.starts
  exact ⟨f, _, by rw [e1]; rfl, e2, e3⟩

/-- The parameters behind the first one. -/
theorem moreParams_run {tmpl : Bool} {ps : Bool → P Nat} {z : Tok} {xs : List Bytes} (h0 : 0 < a) (hM : MoreParams e.mem (AnyParam tmpl e.mem) xs ts) (hz : ParamClose tmpl e.mem z) :
    ∀ {s : St} {v : ParamVars} {r : Nat} {ys : List Bytes}, v.mac = 0 ∧ v.post = 0 → ParamsList s.heap a r ys s.heap.next → Here e s (ts ++ z :: more) rest →
    ∃ v' h' n, n ≤ ts.length + 1 ∧ Turns (fun (v : ParamVars) => do
      if ← check .Comma then
        eat .Comma
        if ← check .Varadic_Argument then
          eat .Varadic_Argument
          let e ← env
          change fun h => paramsAppend h r e.paramVaradic
          return (true, v)
        else
          let v ← oneParam (fun t => do return (← typeWith ps t false).1) tmpl v
          let p ← make { type := .Parameters, params := v.mac, name := v.name, suffix := v.post, typ := v.type, body := v.value }
          change fun h => paramsAppend h r p
          return (true, v)
      else return (false, v)) e n v s v' ⟨s.idx + ts.length, h', s.scope⟩ ∧
      Agree 1 a s.heap h' ∧ s.heap.next ≤ h'.next ∧ ParamsList h' a r (ys ++ xs) h'.next := by
  induction hM with
  | nil =>
    intro s v r ys hv hp h
    have hzf := ParamEnd.fmt (.inr hz)
    have hzt : z.type ≠ .Comma := by rcases hz with ⟨-, hz⟩ | ⟨-, hz⟩ <;> rw [hz.type] <;> decide
    refine ⟨v, s.heap, 1, Nat.le_refl _, .stop ?_, fun q q1 q2 => ⟨⟨q1, ?_⟩, rfl⟩, Nat.le_refl _, by rw [List.append_nil]; exact hp⟩
    · rw [List.nil_append] at h
      refine bind_run (h.check hzf _) ?_
      simp only [hzt, decide_false, Bool.false_eq_true, if_false]
      rfl
    · obtain ⟨l, -, hi, -⟩ := hp
      have := hi.bounds.1
      omega
  | @cons u x ts xs us hu hP hM ih =>
    intro s v r ys hv hp h
    have huf := (hu.code (by decide) (by decide)).fmt
    have h : Here e s (u :: (ts ++ (us ++ z :: more))) rest := by simpa using h
    have heat := h.eat
    rw [hu.type] at heat
    have h1 := h.tail
    obtain ⟨w, wl, hw1, hw2⟩ := hM.next (more := more) hz
    have h1' := h1
    rw [hw1] at h1'
    obtain ⟨l, p1, p2, p3⟩ := hp
    have hbd := p2.bounds
    have hrb := hbd.2 r List.mem_cons_self
    obtain ⟨v1, h2, r1, k1, n1, q1⟩ := oneParam_run (ps := ps) hv hP hw2 (s := s.adv 1) (by show 0 < s.heap.next; omega) h1'
    have n1 : s.heap.next < h2.next := n1
    have k1 : Kept s.heap h2 := k1
    have q1 : ParamRead s.heap.next h2.next h2 v1 x := q1
    have hn0 : 0 < s.heap.next := by omega
    obtain ⟨n, hn⟩ : ∃ n : Node, n = { type := .Parameters, name := v1.name, typ := v1.type, body := v1.value } := ⟨_, rfl⟩
    have hg : Part (grown h2 n) s.heap.next h2.next x := part_made hn0 q1 rfl (by rw [hn]; exact ⟨rfl, rfl, rfl, rfl, rfl, rfl⟩)
    have hkg : Kept s.heap (grown h2 n) := k1.trans (kept_grown _ _)
    have hcn : (grown h2 n).cell h2.next = n := by simp [grown]
    have hvn : (grown h2 n).Valid h2.next := ⟨by omega, Nat.lt_succ_self _⟩
    have hsame : ∀ q, 0 < q → q < s.heap.next → (grown h2 n).Valid q ∧ (grown h2 n).cell q = s.heap.cell q := fun q w1 w2 => hkg q ⟨w1, w2⟩
    have p1' : IsParams (grown h2 n) r l (l.length + 1) := IsParams.agree p1 fun q hq => hsame q (by have := hbd.2 q (by simpa using hq); omega) (hbd.2 q (by simpa using hq)).2
    have p2' : Items (grown h2 n) a (r :: l) ys s.heap.next := p2.frame fun q w1 w2 =>
      ⟨(hsame q (by omega) w2).1, by rw [(hsame q (by omega) w2).2]; exact .refl _, fun _ => (hsame q (by omega) w2).2⟩
    have p3' := p2'.snoc hg
    have hne : h2.next ≠ r := by omega
    obtain ⟨h3, o, r2, p4, p5, p6, p7, p8, p9, p10, -, -⟩ := paramsAppend_spec p1' hvn hne (by rw [hcn, hn])
    rw [hcn, hn] at p5
    simp only [if_true] at p5
    subst p5
    have hfr : ((grown h2 n).cell r).front = 0 ∨ (grown h2 n).Valid ((grown h2 n).cell r).front := by
      cases hq : l.getLast? with
      | none => exact .inl (p1'.first (List.getLast?_eq_none_iff.1 hq))
      | some y =>
        rw [p1'.last y hq]
        have hy := List.mem_of_getLast? hq
        exact .inr (hsame y (by have := hbd.2 y (List.mem_cons_of_mem _ hy); omega) (hbd.2 y (List.mem_cons_of_mem _ hy)).2).1
    have hfm : ((grown h2 n).cell r).front = 0 ∨ ((grown h2 n).cell r).front ∈ l := by
      cases hq : l.getLast? with
      | none => exact .inl (p1'.first (List.getLast?_eq_none_iff.1 hq))
      | some y =>
        rw [p1'.last y hq]
        exact .inr (List.mem_of_getLast? hq)
    obtain ⟨f1, f2⟩ := paramsAppend_frame p1'.valid hvn hne (by rw [hcn, hn]) hfr r2
    have f1 : h3.next = h2.next + 1 := f1
    have hcell : ∀ q, q ∉ r :: (l ++ [h2.next]) → q ≠ 0 → h3.cell q = (grown h2 n).cell q := by
      intro q hq hq0
      refine (f2 q).2 (fun hh => hq (by simp [hh])) (fun hh => hq (by simp [hh])) (fun hh => ?_)
      rcases hfm with hm | hm
      · exact hq0 (hh.trans hm)
      · rw [← hh] at hm
        exact hq (by simp [hm])
    have hv3 : ∀ q, 0 < q → q < h3.next → h3.Valid q := fun q w1 w2 => ⟨w1, w2⟩
    have hpl : ParamsList h3 a r (ys ++ [x]) h3.next := by
      refine ⟨l ++ [h2.next], ?_, ?_, ?_⟩
      · have : ((l ++ [h2.next]).length : Int) + 1 = (l.length : Int) + 1 + 1 := by simp
        rw [this]
        exact p4
      · rw [f1]
        refine p3'.frame fun q w1 w2 => ⟨hv3 q (by omega) (by omega), (f2 q).1, fun hm => hcell q hm (by omega)⟩
      · intro q hq
        rcases List.mem_append.1 hq with hq | hq
        · have hb := hbd.2 q (List.mem_cons_of_mem _ hq)
          have hqr : q ≠ r := fun hh => p1.self (hh ▸ hq)
          have : (h3.cell q).payload = ((grown h2 n).cell q).payload := p9 q (hsame q (by omega) hb.2).1 hqr
          have hnum : (h3.cell q).payload.num = ((grown h2 n).cell q).payload.num := by rw [this]
          have hnum : (h3.cell q).num = ((grown h2 n).cell q).num := hnum
          rw [hnum, (hsame q (by omega) hb.2).2]
          exact p3 q hq
        · rw [List.mem_singleton] at hq
          subst hq
          rw [p8, hcn, hn]
    have hh3 : Here e ⟨s.idx + 1 + ts.length, h3, s.scope⟩ (us ++ z :: more) rest := h1.advN.at rfl
    obtain ⟨v', h', m, m1, m2, m3, m4, m5⟩ := ih (s := ⟨s.idx + 1 + ts.length, h3, s.scope⟩) (v := v1) (r := r) (ys := ys ++ [x]) ⟨q1.mac, q1.post⟩ hpl hh3
    have m4 : h3.next ≤ h'.next := m4
    obtain ⟨fx, fl, hx1, hx2, hx3⟩ := hP.first
    have hx3 : fx.type ≠ .Varadic_Argument := starts_ne hx3 (by decide)
    refine ⟨v', h', m + 1, by simp; omega, .go (y := v1) (s' := ⟨s.idx + 1 + ts.length, h3, s.scope⟩) ?_ ?_, ?_, by omega, by simpa using m5⟩
    · refine bind_run (h.check huf _) ?_
      simp only [hu.type, decide_true, if_true]
      refine bind_run heat ?_
      have h1f := h1
      rw [hx1] at h1f
      refine bind_run (h1f.check hx2 _) ?_
      simp only [hx3, decide_false, Bool.false_eq_true, if_false]
      refine bind_run r1 ?_
      rw [q1.mac, q1.post]
      refine bind_run (make_run (s := ⟨s.idx + 1 + ts.length, h2, s.scope⟩) (by show 0 < h2.next; omega) _) ?_
      rw [← hn]
      refine bind_run (s' := ⟨s.idx + 1 + ts.length, h3, s.scope⟩) (a := ()) ?_ rfl
      show (paramsAppend (grown h2 n) r h2.next).bind _ = _
      rw [r2]
      rfl
    · have : s.idx + (u :: ts ++ us).length = s.idx + 1 + ts.length + us.length := by simp; omega
      rw [this]
      exact m2
    · intro q w1 w2
      obtain ⟨g1, g2⟩ := m3 q w1 w2
      refine ⟨g1, g2.trans ?_⟩
      have hqn : q ∉ r :: (l ++ [h2.next]) := by
        intro hm
        rcases List.mem_cons.1 hm with rfl | hm
        · omega
        · rcases List.mem_append.1 hm with hm | hm
          · have := hbd.2 q (List.mem_cons_of_mem _ hm)
            omega
          · rw [List.mem_singleton] at hm
            omega
      exact (hcell q hqn (by omega)).trans (hsame q w1 (by omega)).2

/-- What opens the parameters. -/
def ParamOpen (tmpl : Bool) (c : Bytes) (o : Tok) : Prop :=
  (tmpl = false ∧ TokIs c o .Paren_Open 0 b!"(") ∨ (tmpl = true ∧ TokIs c o .Operator 1 b!"<")

theorem checkOp_is {b b' : UInt8} (h : Here e s (t :: more) rest) (ht : TokIs e.mem t .Operator 1 [b']) : checkOp b e s = .ok (decide (b' = b), s) := by
  unfold checkOp
  refine bind_run (h.check (ht.code (by decide) (by decide)).fmt _) ?_
  simp only [ht.type, decide_true, if_true]
  refine bind_run (h.cur (ht.code (by decide) (by decide)).fmt) ?_
  exact bind_run (tokOp ht) rfl

theorem checkOp_not {b : UInt8} (h : Here e s (t :: more) rest) (hf : isFmt t = false) (ht : t.type ≠ .Operator) : checkOp b e s = .ok (false, s) := by
  unfold checkOp
  refine bind_run (h.check hf _) ?_
  simp only [ht, decide_false, Bool.false_eq_true, if_false]
  rfl

theorem paramsNone_run {tmpl : Bool} {ps : Bool → P Nat} {o z : Tok} (ho : ParamOpen tmpl e.mem o) (hz : ParamClose tmpl e.mem z) (h : Here e s (o :: z :: more) rest) :
    paramsWith (fun t => do return (← typeWith ps t false).1) tmpl e s = .ok (0, s.adv 2) := by
  have h0 := h.heap s.heap (b!"parse_params" :: s.scope)
  have heat := h0.eat
  have h1 := h0.tail
  have heat1 := h1.eat
  refine inScope_run (sc := b!"parse_params" :: s.scope) ?_ rfl
  rcases ho with ⟨rfl, ho⟩ | ⟨rfl, ho⟩
  · rcases hz with ⟨-, hz⟩ | ⟨hh, -⟩
    · rw [ho.type] at heat
      rw [hz.type] at heat1
      simp only [Bool.not_false, if_true]
      refine bind_run heat ?_
      simp only [Bool.false_eq_true, if_false]
      refine bind_run (h1.check (hz.code (by decide) (by decide)).fmt _) ?_
      simp only [hz.type, decide_true, if_true]
      exact bind_run heat1 rfl
    · cases hh
  · rcases hz with ⟨hh, -⟩ | ⟨-, hz⟩
    · cases hh
    · rw [ho.type] at heat
      rw [hz.type] at heat1
      simp only [Bool.not_true, Bool.false_eq_true, if_false, if_true]
      refine bind_run (checkOp_is h0 ho) ?_
      simp only [decide_true, if_true]
      refine bind_run heat ?_
      refine bind_run (a := false) rfl ?_
      simp only [Bool.false_eq_true, if_false]
      refine bind_run (checkOp_is h1 hz) ?_
      simp only [decide_true, if_true]
      exact bind_run heat1 rfl

theorem paramsSome_run {tmpl : Bool} {ps : Bool → P Nat} {o z : Tok} {xs : List Bytes} (ho : ParamOpen tmpl e.mem o) (hP : AnyParam tmpl e.mem x ts)
    (hM : MoreParams e.mem (AnyParam tmpl e.mem) xs us) (hz : ParamClose tmpl e.mem z) (hn : 0 < s.heap.next) (h : Here e s ((o :: ts ++ us ++ [z]) ++ more) rest) :
    ∃ p h', paramsWith (fun t => do return (← typeWith ps t false).1) tmpl e s = .ok (p, ⟨s.idx + (o :: ts ++ us ++ [z]).length, h', s.scope⟩) ∧ Agree 1 s.heap.next s.heap h' ∧
      s.heap.next ≤ h'.next ∧ Stands .params s.heap.next h'.next h' p (b!", ".intercalate (x :: xs)) := by
  have h0 := h.heap s.heap (b!"parse_params" :: s.scope)
  have h0 : Here e ⟨s.idx, s.heap, b!"parse_params" :: s.scope⟩ (o :: (ts ++ (us ++ z :: more))) rest := by simpa using h0
  have heat := h0.eat
  have h1 := h0.tail
  obtain ⟨f, fl, hf1, hf2, hf3⟩ := hP.first
  have h1f := h1
  rw [hf1] at h1f
  obtain ⟨w, wl, hw1, hw2⟩ := hM.next (more := more) hz
  have h1w := h1
  rw [hw1] at h1w
  obtain ⟨v1, h2, r1, k1, n1, q1⟩ := oneParam_run (ps := ps) (v := {}) ⟨rfl, rfl⟩ hP hw2 (s := St.adv ⟨s.idx, s.heap, b!"parse_params" :: s.scope⟩ 1) hn h1w
  have n1 : s.heap.next < h2.next := n1
  have k1 : Kept s.heap h2 := k1
  have q1 : ParamRead s.heap.next h2.next h2 v1 x := q1
  obtain ⟨n, hnn⟩ : ∃ n : Node, n = { type := .Parameters, name := v1.name, typ := v1.type, body := v1.value, num := 1 } := ⟨_, rfl⟩
  have hg : Part (grown h2 n) s.heap.next h2.next x := part_made hn q1 rfl (by rw [hnn]; exact ⟨rfl, rfl, rfl, rfl, rfl, rfl⟩)
  have hcn : (grown h2 n).cell h2.next = n := by simp [grown]
  have hvn : (grown h2 n).Valid h2.next := ⟨by omega, Nat.lt_succ_self _⟩
  have hpl : ParamsList (grown h2 n) s.heap.next h2.next [x] (grown h2 n).next :=
    ⟨[], ⟨Nat.succ_pos _, hvn, by rw [hcn, hnn]; rfl, trivial, by simp only [List.getLast?_nil, Option.getD_none]; rw [hcn, hnn], (fun _ => by rw [hcn, hnn]),
      (fun _ hh => nomatch hh), (fun _ hh => nomatch hh), (by simp), List.nodup_nil⟩, ⟨hg, Nat.le_refl _⟩, (fun _ hh => nomatch hh)⟩
  have hh2 : Here e ⟨s.idx + 1 + ts.length, grown h2 n, b!"parse_params" :: s.scope⟩ (us ++ z :: more) rest := h1.advN.at rfl
  obtain ⟨v', h', m, m1, m2, m3, m4, m5⟩ := moreParams_run (ps := ps) hn hM hz (s := ⟨s.idx + 1 + ts.length, grown h2 n, b!"parse_params" :: s.scope⟩) (v := v1)
    (r := h2.next) (ys := [x]) ⟨q1.mac, q1.post⟩ hpl hh2
  have hh3 : Here e ⟨s.idx + 1 + ts.length + us.length, h', b!"parse_params" :: s.scope⟩ (z :: more) rest := hh2.advN.at rfl
  have heat2 := hh3.eat
  refine ⟨h2.next, h', inScope_run (sc := b!"parse_params" :: s.scope) ?_ rfl, ?_, ?_, params_stands m5 hn⟩
  · have t1 : f.type ≠ .Paren_Close := starts_ne hf3 (by decide)
    have t2 : f.type ≠ .Operator := starts_ne hf3 (by decide)
    have t3 : f.type ≠ .Varadic_Argument := starts_ne hf3 (by decide)
    have hlast : ∀ r : Nat, (do
        if !tmpl then eat .Paren_Close
        else if ← checkOp 62 then eat .Operator else fail
        return r : P Nat) e ⟨s.idx + 1 + ts.length + us.length, h', b!"parse_params" :: s.scope⟩
        = .ok (r, ⟨s.idx + 1 + ts.length + us.length + 1, h', b!"parse_params" :: s.scope⟩) := by
      intro r
      rcases hz with ⟨rfl, hz⟩ | ⟨rfl, hz⟩
      · rw [hz.type] at heat2
        simp only [Bool.not_false, if_true]
        exact bind_run heat2 rfl
      · rw [hz.type] at heat2
        simp only [Bool.not_true, Bool.false_eq_true, if_false]
        refine bind_run (checkOp_is hh3 hz) ?_
        simp only [decide_true, if_true]
        exact bind_run heat2 rfl
    have hc1 : checkOp 62 e (St.adv ⟨s.idx, s.heap, b!"parse_params" :: s.scope⟩ 1) = .ok (false, St.adv ⟨s.idx, s.heap, b!"parse_params" :: s.scope⟩ 1) :=
      checkOp_not h1f hf2 t2
    have hrest : (do
        let v ← oneParam (fun t => do return (← typeWith ps t false).1) tmpl {}
        let r ← make { type := .Parameters, params := v.mac, name := v.name, typ := v.type, body := v.value, num := 1 }
        moreParams (fun t => do return (← typeWith ps t false).1) tmpl r v
        if !tmpl then eat .Paren_Close
        else if ← checkOp 62 then eat .Operator else fail
        return r : P Nat) e (St.adv ⟨s.idx, s.heap, b!"parse_params" :: s.scope⟩ 1)
        = .ok (h2.next, ⟨s.idx + (o :: ts ++ us ++ [z]).length, h', b!"parse_params" :: s.scope⟩) := by
      refine bind_run r1 ?_
      rw [q1.mac]
      refine bind_run (make_run (s := ⟨s.idx + 1 + ts.length, h2, b!"parse_params" :: s.scope⟩) (by show 0 < h2.next; omega) _) ?_
      rw [← hnn]
      refine bind_run (a := ()) (s' := ⟨s.idx + 1 + ts.length + us.length, h', b!"parse_params" :: s.scope⟩) ?_ ?_
      · unfold moreParams
        refine bind_run (m2.loop ?_) rfl
        have := hh2.length_le
        rw [List.length_append, List.length_cons] at this
        omega
      have hl : s.idx + (o :: ts ++ us ++ [z]).length = s.idx + 1 + ts.length + us.length + 1 := by simp; omega
      rw [hl]
      exact hlast _
    rcases ho with ⟨rfl, ho⟩ | ⟨rfl, ho⟩
    · rw [ho.type] at heat
      simp only [Bool.not_false, if_true]
      refine bind_run heat ?_
      simp only [Bool.false_eq_true, if_false]
      refine bind_run (h1f.check hf2 _) ?_
      simp only [t1, decide_false, Bool.false_eq_true, if_false]
      refine bind_run hc1 ?_
      simp only [Bool.false_eq_true, if_false]
      refine bind_run (h1f.check hf2 _) ?_
      simp only [t3, decide_false, Bool.false_eq_true, if_false]
      exact hrest
    · rw [ho.type] at heat
      simp only [Bool.not_true, Bool.false_eq_true, if_false, if_true]
      refine bind_run (checkOp_is h0 ho) ?_
      simp only [decide_true, if_true]
      refine bind_run heat ?_
      refine bind_run (a := false) rfl ?_
      simp only [Bool.false_eq_true, if_false]
      refine bind_run hc1 ?_
      simp only [Bool.false_eq_true, if_false]
      refine bind_run (h1f.check hf2 _) ?_
      simp only [t3, decide_false, Bool.false_eq_true, if_false]
      exact hrest
  · refine Agree.trans (agree_kept (Nat.succ_pos _) (Nat.le_refl _) (k1.trans (kept_grown _ _))) (m3.mono (Nat.le_refl _) (Nat.le_refl _))
  · have : h2.next + 1 ≤ h'.next := m4
    omega

/-- The parameters of a function or of a template. -/
def AnyParams (tmpl : Bool) (c : Bytes) : Bytes → List Tok → Prop :=
  match tmpl with
  | true => TemplateParams c
  | false => ParamsToks c

theorem AnyParams.cases {tmpl : Bool} {c : Bytes} (h : AnyParams tmpl c x ts) : (∃ o z, ParamOpen tmpl c o ∧ ParamClose tmpl c z ∧ x = [] ∧ ts = [o, z]) ∨
    ∃ o z y ys xs us, ParamOpen tmpl c o ∧ ParamClose tmpl c z ∧ AnyParam tmpl c y ys ∧ MoreParams c (AnyParam tmpl c) xs us ∧ x = b!", ".intercalate (y :: xs) ∧
      ts = o :: ys ++ us ++ [z] := by
  cases tmpl with
  | true =>
    cases (show TemplateParams c x ts from h) with
    | none ho hz => exact .inl ⟨_, _, .inr ⟨rfl, ho⟩, .inr ⟨rfl, hz⟩, rfl, rfl⟩
    | some ho hP hM hz => exact .inr ⟨_, _, _, _, _, _, .inr ⟨rfl, ho⟩, .inr ⟨rfl, hz⟩, hP, hM, rfl, rfl⟩
  | false =>
    cases (show ParamsToks c x ts from h) with
    | none ho hz => exact .inl ⟨_, _, .inl ⟨rfl, ho⟩, .inl ⟨rfl, hz⟩, rfl, rfl⟩
    | some ho hP hM hz => exact .inr ⟨_, _, _, _, _, _, .inl ⟨rfl, ho⟩, .inl ⟨rfl, hz⟩, hP, hM, rfl, rfl⟩

theorem anyParams_run {tmpl : Bool} {ps : Bool → P Nat} (hP : AnyParams tmpl e.mem x ts) (hn : 0 < s.heap.next) (h : Here e s (ts ++ more) rest) :
    ∃ p h', paramsWith (fun t => do return (← typeWith ps t false).1) tmpl e s = .ok (p, ⟨s.idx + ts.length, h', s.scope⟩) ∧ Agree 1 s.heap.next s.heap h' ∧
      s.heap.next ≤ h'.next ∧ ((p = 0 ∧ x = []) ∨ Stands .params s.heap.next h'.next h' p x) := by
  rcases hP.cases with ⟨o, z, ho, hz, rfl, rfl⟩ | ⟨o, z, y, ys, xs, us, ho, hz, hY, hM, rfl, rfl⟩
  · exact ⟨0, s.heap, paramsNone_run ho hz h, fun q q1 q2 => ⟨⟨q1, q2⟩, rfl⟩, Nat.le_refl _, .inl ⟨rfl, rfl⟩⟩
  · obtain ⟨p, h', k1, k2, k3, k4⟩ := paramsSome_run (ps := ps) ho hY hM hz hn h
    exact ⟨p, h', k1, k2, k3, .inr k4⟩

theorem paramsWith_run {ps : Bool → P Nat} (hP : ParamsToks e.mem x ts) (hn : 0 < s.heap.next) (h : Here e s (ts ++ more) rest) :
    ∃ p h', paramsWith (fun t => do return (← typeWith ps t false).1) false e s = .ok (p, ⟨s.idx + ts.length, h', s.scope⟩) ∧ Agree 1 s.heap.next s.heap h' ∧
      s.heap.next ≤ h'.next ∧ ((p = 0 ∧ x = []) ∨ Stands .params s.heap.next h'.next h' p x) :=
  anyParams_run (tmpl := false) hP hn h

theorem params_run (hP : ParamsToks e.mem x ts) (hn : 0 < s.heap.next) (h : Here e s (ts ++ more) rest) :
    ∃ p h', params false e s = .ok (p, ⟨s.idx + ts.length, h', s.scope⟩) ∧ Agree 1 s.heap.next s.heap h' ∧
      s.heap.next ≤ h'.next ∧ ((p = 0 ∧ x = []) ∨ Stands .params s.heap.next h'.next h' p x) := paramsWith_run hP hn h

theorem AnyParam.ne {tmpl : Bool} {c : Bytes} (h : AnyParam tmpl c x ts) : x ≠ [] := by
  cases tmpl with
  | true =>
    cases (show TemplateParam c x ts from h) with
    | type => simp
    | value h => cases h; simp
  | false =>
    cases (show ParamToks c x ts from h)
    simp

theorem templateParams_run (hP : TemplateParams e.mem x ts) (hn : 0 < s.heap.next) (h : Here e s (ts ++ more) rest) :
    ∃ p h', params true e s = .ok (p, ⟨s.idx + ts.length, h', s.scope⟩) ∧ Agree 1 s.heap.next s.heap h' ∧
      s.heap.next ≤ h'.next ∧ OptStands .params s.heap.next h'.next h' p x := by
  rcases AnyParams.cases (tmpl := true) hP with ⟨o, z, ho, hz, rfl, rfl⟩ | ⟨o, z, y, ys, xs, us, ho, hz, hY, hM, rfl, rfl⟩
  · exact ⟨0, s.heap, paramsNone_run ho hz h, fun q q1 q2 => ⟨⟨q1, q2⟩, rfl⟩, Nat.le_refl _, .inl ⟨rfl, rfl⟩⟩
  · obtain ⟨p, h', k1, k2, k3, k4⟩ := paramsSome_run (ps := paramsN (e.cells.length + 1)) ho hY hM hz hn h
    refine ⟨p, h', k1, k2, k3, .inr ⟨?_, k4⟩⟩
    have := hY.ne
    cases xs with
    | nil => simpa [List.intercalate] using this
    | cons => simp [List.intercalate]

end Verif.Parse
