import Verif.Proof.RoundBody
/-!
# C59: the tokens of a body
-/
namespace Verif.Round
open Verif.Lex (Tok Pos Macros Piece Reads CommentText Spaces NotNext Lexes toksAt)
open Verif.Parse (TokIs Spans IdTok QualToks Code Balanced NoComment RecordKind RecordHead RecordName UnionHead MembersToks DeclToks DeclHead Label Place placeSpecs firstSpecs vendorTypes builtinTypes)

/-! ## Lines -/

theorem line_after {w : Bytes} : ∀ {p : Pos}, p.line ≤ (p.after w).line ∧ (10 ∈ w → p.line < (p.after w).line) := by
  induction w with
  | nil => intro p; exact ⟨Nat.le_refl _, fun h => by cases h⟩
  | cons b w ih =>
    intro p
    rw [Lex.after_cons]
    have h := @ih (p.step b)
    by_cases hb : b = 10
    · have e : (p.step b).line = p.line + 1 := by rw [Pos.step, if_pos hb]
      rw [e] at h
      exact ⟨by omega, fun _ => by omega⟩
    · have e : (p.step b).line = p.line := by rw [Pos.step, if_neg hb]
      rw [e] at h
      refine ⟨h.1, fun hm => h.2 ?_⟩
      rcases List.mem_cons.mp hm with hm | hm
      · exact absurd hm.symm hb
      · exact hm

/-- Behind a token with a line break another line begins. -/
theorem next_line {p : Pos} {q : Piece} {l : List Piece} (h : 10 ∈ q.all) : NoComment (tokOf p q) (toksAt (p.after q.all) l) := by
  intro t ht hh
  cases l with
  | nil => cases ht
  | cons r l =>
    cases ht
    have h1 := (line_after (w := q.all) (p := p)).2 h
    have h2 : (tokOf (p.after q.all) r).line = p.line := hh.2
    change (p.after q.all).line = p.line at h2
    omega

theorem next_last {p : Pos} {l k : List Piece} {q : Piece} (hq : l.getLast? = some q) (h : 10 ∈ q.all) : ∀ u, (toksAt p l).getLast? = some u → NoComment u (toksAt (p.after (written l)) k) := by
  obtain ⟨m, rfl⟩ := List.getLast?_eq_some_iff.mp hq
  intro u hu
  rw [toksAt_append, toksAt_cons, toksAt_nil, List.getLast?_concat] at hu
  cases hu
  rw [written_append, Lex.after_append, written_cons, written_nil, List.append_nil]
  exact next_line h

theorem semi_line : 10 ∈ semiP.all := by decide

/-! ## Types of tokens -/

theorem toks_get {l : List Piece} {i : Nat} {p : Pos} {t : Tok} (h : (toksAt p l)[i]? = some t) : ∃ q, l[i]? = some q ∧ t.type = q.type := by
  have h1 : ((toksAt p l).map (·.type))[i]? = some t.type := by rw [List.getElem?_map, h]; rfl
  rw [toksAt_types, List.getElem?_map] at h1
  cases hq : l[i]? with
  | none => rw [hq] at h1; cases h1
  | some q => rw [hq] at h1; exact ⟨q, rfl, (Option.some.inj h1).symm⟩

theorem toks_head {l : List Piece} {p : Pos} {t : Tok} (h : (toksAt p l).head? = some t) : ∃ q, l.head? = some q ∧ t.type = q.type := by
  rw [List.head?_eq_getElem?] at h
  obtain ⟨q, h1, h2⟩ := toks_get h
  exact ⟨q, by rw [List.head?_eq_getElem?]; exact h1, h2⟩

/-- No macro. -/
abbrev Plain (q : Piece) : Prop := q.type ≠ .Preprocess_Macro_Expr

theorem type_plain {ms : Macros} {g : Bytes} {t : Ty} (h : t.Ok ms) {k : List Piece} : ∀ q, (typeP g t ++ k).head? = some q → Plain q := by
  intro q hq
  obtain ⟨r, h1, h2⟩ := type_head (g := g) (k := k) h
  rw [h1] at hq
  cases hq
  rcases h2 with h2 | h2
  · intro hh; rw [h2.1] at hh; cases hh
  · exact (builtin_quiet h2).2.2.2.2.1

theorem marks_plain {g : Bytes} {l : List Specifier} : ∀ q, (marksP g l).head? = some q → Plain q := by
  cases l with
  | nil => intro q hq; cases hq
  | cons s l => intro q hq; cases hq; exact (specTok_quiet s).2.2.2.1

theorem words_plain {g : Bytes} {l : List Specifier} : ∀ q, (wordsP g l).head? = some q → Plain q := by
  cases l with
  | nil => intro q hq; cases hq
  | cons s l => intro q hq; cases hq; exact (specTok_quiet s).2.2.2.1

theorem var_plain {ms : Macros} {g : Bytes} {l : List Specifier} {v : Var} {k : List Piece} (h : v.Ok ms l) : ∀ q, (varP g v ++ k).head? = some q → Plain q := by
  rw [varP, declP]
  simp only [List.append_assoc]
  exact head_append' marks_plain (type_plain h.ty)

theorem fn_plain {ms : Macros} {g : Bytes} {l : List Specifier} {f : Fn} {k : List Piece} (h : f.Ok ms l) : ∀ q, (fnP g f ++ k).head? = some q → Plain q := by
  rw [fnP, fheadP]
  simp only [List.append_assoc]
  exact head_append' words_plain (type_plain h.ty)

theorem body_plain {ms : Macros} {p : Place} {w b : Bool} {x : Body} (h : Body.Ok ms p b x) : ∀ q, (bodyP w b x).head? = some q → Plain q := by
  cases h with
  | nil => intro q hq; rw [bodyP] at hq; split at hq <;> cases hq; intro hh; cases hh
  | newline => intro q hq; cases hq; intro hh; cases hh
  | comment => intro q hq; cases hq; intro hh; cases hh
  | @label b a r => intro q hq; cases hq; show accTok a ≠ _; cases a <;> decide
  | var _ hv => exact var_plain hv.ok
  | member hv => exact var_plain hv.ok
  | fn _ hf => exact fn_plain hf.ok
  | @alias p b a r _ ha => intro q hq; cases ha <;> (cases hq; intro hh; cases hh)
  | @forward p b k n r => intro q hq; cases hq; show k.tok ≠ _; cases k <;> decide
  | enumFwd => intro q hq; cases hq; intro hh; cases hh
  | enum => intro q hq; cases hq; intro hh; cases hh
  | @record p b h =>
    intro q hq
    cases h with
    | named k n f => cases hq; show k.tok ≠ _; cases k <;> decide
    | unnamed => cases hq; intro hh; cases hh
  | union => intro q hq; cases hq; intro hh; cases hh
  | space => intro q hq; cases hq; intro hh; cases hh
  | linkage => intro q hq; cases hq; intro hh; cases hh

/-! ## Declarations -/

theorem not_vendor {g : Bytes} {t : Ty} {pos : Pos} (h : t.NotVendor) : ∀ u, (toksAt pos (typeP g t)).head? = some u → u.type ∉ vendorTypes := by
  intro u hu
  obtain ⟨q, h1, h2⟩ := toks_head hu
  rw [h2]
  cases hn : t.name with
  | name n =>
    rw [typeP, hn] at h1
    cases h1
    show TokType.Identifier ∉ vendorTypes
    decide
  | native f l =>
    rw [typeP, hn] at h1
    cases h1
    exact h f l hn

theorem On.declHead {c : Bytes} {ms : Macros} {p : Place} {pos : Pos} {g : Bytes} {l : List Specifier} {t : Ty} {n : Qual} (hl : ∀ s ∈ l, s ∈ placeSpecs p) (hs : SpecsAt p l t) (ht : t.Ok ms)
    (hn : n.Ok ms) (h : On c pos (declP g l t n)) : DeclHead c p l t.text n.text (toksAt pos (declP g l t n)) := by
  rw [declP] at h ⊢
  have := DeclHead.mk h.left.marks hl hs.1 (h.right.left.type ht) (fun h0 => not_vendor (hs.2 h0)) (h.right.right.qual hn)
  rw [toksAt_append, toksAt_append, ← List.append_assoc]
  exact this

theorem On.fnHead {c : Bytes} {ms : Macros} {p : Place} {pos : Pos} {g : Bytes} {l : List Specifier} {t : Ty} {n : Qual} (hl : ∀ s ∈ l, s ∈ placeSpecs p) (hs : SpecsAt p l t) (ht : t.Ok ms)
    (hn : n.Ok ms) (h : On c pos (fheadP g l t n)) : DeclHead c p l t.text n.text (toksAt pos (fheadP g l t n)) := by
  rw [fheadP] at h ⊢
  have := DeclHead.mk h.left.words hl hs.1 (h.right.left.type ht) (fun h0 => not_vendor (hs.2 h0)) (h.right.right.qual hn)
  rw [toksAt_append, toksAt_append, ← List.append_assoc]
  exact this

/-- The second token behind the name of a variable. -/
theorem tail_second {ms : Macros} {t : Tail} {k : List Piece} (h : t.Ok ms) (hm : ∀ q, t.code.head? = some q → Plain q) (hk : ∀ q, k.head? = some q → Plain q) :
    ∀ q, (tailP t ++ semiP :: k)[1]? = some q → Plain q := by
  have key : ∀ {a : Piece} {g : Bytes} {c m : List Piece}, c ≠ [] → (∀ q, c.head? = some q → Plain q) → ∀ q, (a :: (lead g c ++ m))[1]? = some q → Plain q := by
    intro a g c m h0 hc q hq
    cases c with
    | nil => exact absurd rfl h0
    | cons x c => cases hq; exact hc x rfl
  cases h with
  | @array l i hl hi =>
    cases l with
    | nil =>
      cases hi with
      | none =>
        intro q hq
        have : k[0]? = some q := hq
        rw [← List.head?_eq_getElem?] at this
        exact hk q this
      | value hv _ => exact key hv.filled hm
      | @parens v hv _ _ =>
        have := key (a := puP [] b!"(" .Paren_Open 0) (g := b!" ") (m := [puP b!"  " b!")" .Paren_Close 0] ++ semiP :: k) hv.filled hm
        simp only [tailP, boundsP, List.flatMap_nil, initP, List.nil_append, List.cons_append, List.append_assoc] at this ⊢
        exact this
    | cons b l =>
      have := key (a := puP [] b!"[" .BraceSquare_Open 0) (g := b!" ") (m := [puP b!" " b!"]" .BraceSquare_Close 0] ++ (boundsP l ++ (initP i ++ semiP :: k))) (hl b List.mem_cons_self).1.filled hm
      simp only [tailP, boundsP, List.flatMap_cons, boundP, List.cons_append, List.append_assoc] at this ⊢
      exact this
  | bits hv => exact key hv.filled hm

theorem tail_head {t : Tail} (hp : ∀ l k, t ≠ .array l (.parens k)) : ∀ q, (tailP t).head? = some q → q.type ≠ .Paren_Open := by
  cases t with
  | array l i =>
    cases l with
    | nil =>
      cases i with
      | none => intro q hq; cases hq
      | value k => intro q hq; cases hq; intro hh; cases hh
      | parens k => exact absurd rfl (hp [] k)
    | cons b l => intro q hq; cases hq; intro hh; cases hh
  | bits k => intro q hq; cases hq; intro hh; cases hh

theorem On.varAt {c : Bytes} {ms : Macros} {p : Place} {pos : Pos} {g : Bytes} {v : Var} {k : List Piece} (h : v.At ms p) (hk : ∀ q, k.head? = some q → Plain q) (ho : On c pos (varP g v)) :
    DeclToks ms c p (toksAt (pos.after (written (varP g v))) k) v.text (toksAt pos (varP g v)) := by
  rw [varP] at ho ⊢
  have hu := ho.right.right.tokIs
  have e : ∀ {pos : Pos}, pos.after (written (declP g v.specs v.ty v.name ++ (tailP v.tail ++ [semiP]))) = ((pos.after (written (declP g v.specs v.ty v.name))).after (written (tailP v.tail))).after semiP.all := by
    intro pos
    simp only [written_append, Lex.after_append, written_cons, written_nil, List.append_nil]
  have := DeclToks.var (ms := ms) (k := p) (next := toksAt (pos.after (written (declP g v.specs v.ty v.name ++ (tailP v.tail ++ [semiP])))) k)
    (ho.left.declHead (fun s hs => (h.ok.specs s hs).1) h.specs h.ok.ty h.ok.name) h.eval h.ok.few (On.tail' h.ok.tail ho.right) hu
    (fun t ht => by obtain ⟨q, h1, h2⟩ := toks_head ht; rw [h2]; exact tail_head h.parens q h1)
    (fun t ht => by
      rw [e, ← toksAt_cons, ← toksAt_append] at ht
      obtain ⟨q, h1, h2⟩ := toks_get ht
      rw [h2]
      exact tail_second h.ok.tail h.noMacro hk q h1)
    (by rw [e]; exact next_line semi_line)
  rw [toksAt_append, toksAt_append, Var.text]
  simp only [List.append_assoc] at this ⊢
  exact this

theorem qual_commas {g : Bytes} {n : Qual} : ∀ q ∈ qualP g n, q.type ≠ .Comma := by
  intro q hq
  rcases List.mem_cons.mp hq with rfl | hq
  · intro hh; cases hh
  · obtain ⟨x, -, hx⟩ := List.mem_flatMap.mp hq
    rcases List.mem_cons.mp hx with rfl | hx
    · intro hh; cases hh
    · rw [List.mem_singleton.mp hx]; intro hh; cases hh

theorem type_commas {ms : Macros} {g : Bytes} {t : Ty} (h : t.Ok ms) : ∀ q ∈ typeP g t, q.type ≠ .Comma := by
  intro q hq
  rw [typeP] at hq
  rcases List.mem_append.mp hq with hq | hq
  · have hn := h.name
    cases htn : t.name with
    | name n => rw [htn] at hq; exact qual_commas q hq
    | native f l =>
      rw [htn] at hq hn
      rcases List.mem_cons.mp hq with rfl | hq
      · exact (builtin_quiet (hn f List.mem_cons_self).2).2.2.2.2.2
      · obtain ⟨x, hx, rfl⟩ := List.mem_map.mp hq
        exact (builtin_quiet (hn x (List.mem_cons_of_mem _ hx)).2).2.2.2.2.2
  · cases hts : t.specs with
    | nil => rw [hts] at hq; cases hq
    | cons s l =>
      rw [hts] at hq
      rcases List.mem_cons.mp hq with rfl | hq
      · exact (specTok_quiet s).2.2.2.2.1
      · obtain ⟨x, hx, rfl⟩ := List.mem_map.mp hq
        exact (specTok_quiet x).2.2.2.2.1

/-- The second token of a parameter. -/
theorem params_third {ms : Macros} {l : List Param} (hl : ∀ x ∈ l, x.Ok ms)
    (hf : ∀ a b m, l = a :: b :: m → a.name ≠ [] ∨ a.value ≠ [] ∨ a.ty.specs ≠ [] ∨ (match a.ty.name with | .name q => q.more | .native _ l => l) ≠ []) :
    ∀ q, (paramsP l)[2]? = some q → q.type ≠ .Comma := by
  cases l with
  | nil => intro q hq; cases hq
  | cons a l =>
    intro q hq
    rw [paramsP, paramP] at hq
    rw [List.getElem?_cons_succ] at hq
    simp only [List.append_assoc] at hq
    have ha := (hl a List.mem_cons_self).ty
    obtain ⟨x, m, e, -⟩ := name_first (g := b!" ") ha.name
    have et : typeP b!" " a.ty = x :: (m ++ suffixP a.ty.specs) := by rw [typeP, e]; rfl
    have hc := type_commas (g := b!" ") ha
    rw [et] at hq hc
    cases hm : m ++ suffixP a.ty.specs with
    | cons y n =>
      rw [hm] at hq hc
      cases hq
      exact hc _ (by simp)
    | nil =>
      rw [hm] at hq
      obtain ⟨h1, h2⟩ := List.append_eq_nil_iff.mp hm
      by_cases hn : a.name = []
      · by_cases hv : a.value = []
        · cases l with
          | nil => rw [hn, hv] at hq; cases hq; intro hh; cases hh
          | cons b l =>
            exfalso
            rcases hf a b l rfl with h | h | h | h
            · exact h hn
            · exact h hv
            · cases hts : a.ty.specs with
              | nil => exact h hts
              | cons s r => rw [hts] at h2; cases h2
            · cases htn : a.ty.name with
              | name n =>
                rw [htn] at h e
                cases hmo : n.more with
                | nil => exact h hmo
                | cons z r =>
                  rw [nameP, qualP, hmo] at e
                  cases e
                  cases h1
              | native f r =>
                rw [htn] at h e
                cases r with
                | nil => exact h rfl
                | cons z r => rw [nameP] at e; cases e; cases h1
        · have : pvalueP (if a.name = [] then typeGap a.ty ++ b!" " else b!" ") a.value = puP (if a.name = [] then typeGap a.ty ++ b!" " else b!" ") b!"=" .Operator 3 :: lead b!" " a.value := by
            rw [pvalueP, if_neg hv]
          rw [this, pnameP, if_pos hn] at hq
          cases hq
          intro hh; cases hh
      · rw [pnameP, if_neg hn] at hq
        cases hq
        intro hh; cases hh

theorem end_line {e : Option (List Piece)} {pos : Pos} {k : List Piece} : ∀ u, toksAt pos (endP e) = [u] → NoComment u (toksAt (pos.after (written (endP e))) k) := by
  intro u hu
  cases e with
  | none =>
    cases hu
    have : written (endP none) = semiP.all := by simp [endP]
    rw [this]
    exact next_line semi_line
  | some l =>
    have := congrArg List.length hu
    rw [toksAt_length] at this
    simp [endP] at this

theorem On.fnAt {c : Bytes} {ms : Macros} {p : Place} {pos : Pos} {g : Bytes} {f : Fn} {k : List Piece} (h : f.At ms p) (ho : On c pos (fnP g f)) :
    DeclToks ms c p (toksAt (pos.after (written (fnP g f))) k) f.text (toksAt pos (fnP g f)) := by
  rw [fnP] at ho ⊢
  have hname := qual_noSpaces h.ok.name
  have hne : Parse.noSpaces f.name.text ≠ [] := by
    rw [hname]
    obtain ⟨a, r, e, -⟩ := (h.ok.name _ List.mem_cons_self).word
    rw [Qual.text, e]
    exact List.cons_ne_nil _ _
  have := DeclToks.fn (ms := ms) (k := p) (next := toksAt (pos.after (written (fheadP g f.lead f.ty f.name ++ (paramsP f.params ++ (wordsP b!" " f.trail ++ endP f.body))))) k)
    (ho.left.fnHead (fun s hs => (h.ok.lead s hs).1) h.specs h.ok.ty h.ok.name) h.volatile (qual_noZero h.ok.name) hne (ho.right.left.params h.ok.params)
    (fun t ht => by obtain ⟨q, h1, h2⟩ := toks_get ht; rw [h2]; exact params_third h.ok.params h.first q h1)
    ho.right.right.left.words (fun s hs => (h.ok.trail s hs).1) (fun s hs => (h.ok.trail s hs).2) h.ok.few (ho.right.right.right.body h.ok.body)
    (fun u hu => by
      have := end_line (k := k) u hu
      simp only [written_append, Lex.after_append] at this ⊢
      exact this)
  rw [hname] at this
  rw [toksAt_append, toksAt_append, toksAt_append, Fn.text]
  simp only [List.append_assoc] at this ⊢
  exact this

/-! ## Bodies -/

/-- The body with the line break in front of the closing brace (`w`). -/
def fin (w b : Bool) (x : Body) : Body := if w then x.closed b else x

theorem balanced_toks {l : List Piece} {pos : Pos} (h : Tame l) : Balanced (toksAt pos l) := balanced_types (by rw [toksAt_types, shape_types]) h.balanced

theorem label_is {a : Access} : Label (accTok a) (a.word ++ b!":\n") := by
  cases a
  · exact .pub
  · exact .pro
  · exact .pri

def RecHead.kind : RecHead → RecordKind
  | .named k _ _ => k
  | .unnamed => .struct

theorem On.recHead {c : Bytes} {ms : Macros} {pos : Pos} {g : Bytes} {h : RecHead} (hh : h.Ok ms) (ho : On c pos (recHeadP g h)) : RecordHead c h.kind h.text (toksAt pos (recHeadP g h)) := by
  cases h with
  | named k n f =>
    have h1 := ho.tail
    cases f with
    | false =>
      rw [if_neg (by simp), List.append_nil] at h1
      have := RecordName.named (k := k) (t := tokOf pos (kwP g (keyOf k) k.tok)) rfl (h1.qual hh)
      rw [recHeadP, if_neg (by simp), List.append_nil, toksAt_cons, RecHead.text, if_neg (by simp), List.append_nil]
      exact .plain this
    | true =>
      rw [if_pos rfl] at h1
      have := RecordName.final (k := k) (t := tokOf pos (kwP g (keyOf k) k.tok)) rfl (h1.left.qual hh) h1.right.tokIs
      rw [recHeadP, if_pos rfl, toksAt_cons, toksAt_append, RecHead.text, if_pos rfl]
      exact .plain this
  | unnamed => exact .plain (.unnamed rfl)

theorem On.unionHead {c : Bytes} {ms : Macros} {pos : Pos} {g n : Bytes} (hn : n ≠ [] → IsName ms n) (ho : On c pos (unionHeadP g n)) : UnionHead c (b!"union " ++ n) (toksAt pos (unionHeadP g n)) := by
  rw [unionHeadP] at ho ⊢
  by_cases h : n = []
  · rw [if_pos h] at ho ⊢
    subst h
    exact .unnamed rfl
  · rw [if_neg h] at ho ⊢
    exact .named rfl ⟨ho.tail.tokIs, h⟩

theorem name_ne {ms : Macros} {x : Bytes} (h : IsName ms x) : x ≠ [] := by
  obtain ⟨a, r, e, -⟩ := h.word
  rw [e]
  exact List.cons_ne_nil _ _

theorem toks_block {pos : Pos} {l inner k : List Piece} {o z : Piece} : ∃ po pi pz, po = pos.after (written l) ∧ pi = po.after o.all ∧ pz = pi.after (written inner) ∧
    toksAt pos (l ++ o :: (inner ++ z :: k)) = toksAt pos l ++ tokOf po o :: toksAt pi inner ++ tokOf pz z :: toksAt (pz.after z.all) k := by
  refine ⟨_, _, _, rfl, rfl, rfl, ?_⟩
  rw [toksAt_append, toksAt_cons, toksAt_append, toksAt_cons]
  simp

theorem On.members {c : Bytes} {ms : Macros} {p : Place} {b : Bool} {x : Body} (h : Body.Ok ms p b x) : ∀ w pos, On c pos (bodyP w b x) →
    MembersToks ms c p (fin w b x.again).text (toksAt pos (bodyP w b x)) := by
  induction h with
  | @nil p b =>
    intro w pos ho
    cases w <;> cases b
    · exact .nil
    · exact .nil
    · exact .newline rfl .nil
    · exact .nil
  | @newline p r _ ih =>
    intro w pos ho
    have := MembersToks.newline (t := tokOf pos nlP) rfl (ih w _ ho.tail)
    rw [show (fin w false (Body.newline r).again).text = b!"\n" ++ (fin w false r.again).text by cases w <;> rfl]
    exact this
  | @comment p b x r hx _ ih =>
    intro w pos ho
    rw [show (fin w b (Body.comment x r).again).text = x ++ (fin w false r.again).text by cases w <;> rfl]
    exact .comment ho.tokIs (ih w _ ho.tail)
  | @label b a r _ ih =>
    intro w pos ho
    rw [show (fin w b (Body.label a r).again).text = (a.word ++ b!":\n") ++ (fin w true r.again).text by cases w <;> rfl]
    exact .label (t := tokOf pos (kwP (gapOf b) a.word (accTok a))) label_is rfl (ih w _ ho.tail.tail)
  | @var p b v r hp hv hr ih =>
    intro w pos ho
    rw [show (fin w b (Body.var v r).again).text = v.text ++ (fin w false r.again).text by cases w <;> rfl]
    rw [bodyP] at ho ⊢
    rw [toksAt_append]
    exact .decl hp (ho.left.varAt hv (body_plain hr)) (ih w _ ho.right)
  | @member b v r hv hr ih =>
    intro w pos ho
    rw [show (fin w b (Body.var v r).again).text = v.text ++ (fin w false r.again).text by cases w <;> rfl]
    rw [bodyP] at ho ⊢
    rw [toksAt_append]
    exact .var (On.var hv.ok ho.left) (next_last var_last semi_line) (ih w _ ho.right)
  | @fn p b f r hp hf hr ih =>
    intro w pos ho
    rw [show (fin w b (Body.fn f r).again).text = f.text ++ (fin w false r.again).text by cases w <;> rfl]
    rw [bodyP] at ho ⊢
    rw [toksAt_append]
    exact .decl hp (ho.left.fnAt hf) (ih w _ ho.right)
  | @alias p b a r hp ha _ _ hr ih =>
    intro w pos ho
    rw [show (fin w b (Body.alias a r).again).text = a.text ++ (fin w false r.again).text by cases w <;> rfl]
    rw [bodyP] at ho ⊢
    rw [toksAt_append]
    obtain ⟨q, h1, h2, h3⟩ := alias_last (g := gapOf b) (a := a)
    exact .alias hp (On.alias ha ho.left) (next_last h1 (by rw [Piece.all, h2]; simp)) (ih w _ ho.right)
  | @forward p b k n r hn hr ih =>
    intro w pos ho
    rw [show (fin w b (Body.forward k n r).again).text = k.word ++ n ++ b!";\n" ++ (fin w false r.again).text by cases w <;> rfl]
    exact .forward (t := tokOf pos (kwP (gapOf b) (keyOf k) k.tok)) rfl ⟨ho.tail.tokIs, name_ne hn⟩ ho.tail.tail.tokIs (next_line semi_line) (ih w _ ho.tail.tail.tail)
  | @enumFwd p b n r hn hr ih =>
    intro w pos ho
    rw [show (fin w b (Body.enumFwd n r).again).text = b!"enum " ++ n ++ b!";\n" ++ (fin w false r.again).text by cases w <;> rfl]
    exact .enumFwd (t := tokOf pos (kwP (gapOf b) b!"enum" .Decl_Enum)) rfl ⟨ho.tail.tokIs, name_ne hn⟩ ho.tail.tail.tokIs (next_line semi_line) (ih w _ ho.tail.tail.tail)
  | @enum p b e r he ht hr ih =>
    intro w pos ho
    rw [show (fin w b (Body.enum e r).again).text = e.head ++ b!"\n{\n" ++ e.inner ++ b!"\n};\n" ++ (fin w false r.again).text by cases w <;> rfl]
    have eq : bodyP w b (.enum e r) = enumHeadP (gapOf b) e ++ puP (underGap e.under ++ b!"\n") b!"{" .BraceCurly_Open 0 :: (entriesP b!"\n" e.comma e.entries ++ closeP (enumGap e) [] :: semiP :: bodyP w false r) := by
      rw [bodyP, enumP]; simp
    rw [eq] at ho ⊢
    obtain ⟨po, pi, pz, e1, e2, e3, e4⟩ := toks_block (pos := pos) (l := enumHeadP (gapOf b) e) (o := puP (underGap e.under ++ b!"\n") b!"{" .BraceCurly_Open 0)
      (inner := entriesP b!"\n" e.comma e.entries) (z := closeP (enumGap e) []) (k := semiP :: bodyP w false r)
    rw [e4]
    have h1 := ho.left
    have h2 := ho.right
    rw [← e1] at h2
    have h3 := h2.tail
    rw [← e2] at h3
    have h4 := h3.right
    rw [← e3] at h4
    exact .enumDef (On.enumHead he h1) h2.tokIs (On.entries he.entries h3.left) (balanced_toks (entries_tame ht)) h4.tokIs h4.tail.tokIs (next_line semi_line) (ih w _ h4.tail.tail)
  | @record p b h i r hh hi hr ih1 ih2 =>
    intro w pos ho
    rw [show (fin w b (Body.record h i r).again).text = h.text ++ b!"\n{\n" ++ (fin true true i.again).text ++ b!"\n};\n" ++ (fin w false r.again).text by cases w <;> rfl]
    rw [bodyP] at ho ⊢
    obtain ⟨po, pi, pz, e1, e2, e3, e4⟩ := toks_block (pos := pos) (l := recHeadP (gapOf b) h) (o := openP (recGap h ++ b!"\n")) (inner := bodyP true true i)
      (z := closeP (endGap true (bodyEnd true i)) []) (k := semiP :: bodyP w false r)
    rw [e4]
    have h1 := ho.left
    have h2 := ho.right
    rw [← e1] at h2
    have h3 := h2.tail
    rw [← e2] at h3
    have h4 := h3.right
    rw [← e3] at h4
    exact .record (On.recHead hh h1) h2.tokIs (ih1 true _ h3.left) (balanced_toks (body_tame hi true)) h4.tokIs h4.tail.tokIs (next_line semi_line) (ih2 w _ h4.tail.tail)
  | @union p b n i r hh hi hr ih1 ih2 =>
    intro w pos ho
    rw [show (fin w b (Body.union n i r).again).text = (b!"union " ++ n) ++ b!"\n{\n" ++ (fin true true i.again).text ++ b!"\n};\n" ++ (fin w false r.again).text by cases w <;> rfl]
    rw [bodyP] at ho ⊢
    obtain ⟨po, pi, pz, e1, e2, e3, e4⟩ := toks_block (pos := pos) (l := unionHeadP (gapOf b) n) (o := openP (unionGap n ++ b!"\n")) (inner := bodyP true true i)
      (z := closeP (endGap true (bodyEnd true i)) []) (k := semiP :: bodyP w false r)
    rw [e4]
    have h1 := ho.left
    have h2 := ho.right
    rw [← e1] at h2
    have h3 := h2.tail
    rw [← e2] at h3
    have h4 := h3.right
    rw [← e3] at h4
    exact .union (On.unionHead hh h1) h2.tokIs (ih1 true _ h3.left) (balanced_toks (body_tame hi true)) h4.tokIs h4.tail.tokIs (ih2 w _ h4.tail.tail)
  | @space p b n i r hp hn hi hr ih1 ih2 =>
    intro w pos ho
    rw [show (fin w b (Body.space n i r).again).text = b!"namespace " ++ n.text ++ b!"\n{\n" ++ (fin true true i.again).text ++ b!"\n}\n" ++ (fin w false r.again).text by cases w <;> rfl]
    rw [bodyP, toksAt_cons] at *
    obtain ⟨po, pi, pz, e1, e2, e3, e4⟩ := toks_block (pos := pos.after (kwP (gapOf b) b!"namespace" .Decl_Namespace).all) (l := qualP b!" " n) (o := openP b!"\n") (inner := bodyP true true i)
      (z := closeP (endGap true (bodyEnd true i)) b!"\n") (k := bodyP w false r)
    rw [e4]
    have h1 := ho.tail.left
    have h2 := ho.tail.right
    rw [← e1] at h2
    have h3 := h2.tail
    rw [← e2] at h3
    have h4 := h3.right
    rw [← e3] at h4
    have := MembersToks.space (t := tokOf pos (kwP (gapOf b) b!"namespace" .Decl_Namespace)) (z := tokOf pz (closeP (endGap true (bodyEnd true i)) b!"\n")) hp rfl (h1.qual hn) h2.tokIs
      (ih1 true _ h3.left) rfl (ih2 w _ h4.tail)
    rw [List.cons_append, List.cons_append] at this
    exact this
  | @linkage b n i r h0 hn hi hr ih1 ih2 =>
    intro w pos ho
    rw [show (fin w b (Body.linkage n i r).again).text = b!"extern \"" ++ n ++ b!"\"\n{\n" ++ (fin true true i.again).text ++ b!"\n}\n" ++ (fin w false r.again).text by cases w <;> rfl]
    rw [bodyP, toksAt_cons, toksAt_cons] at *
    obtain ⟨po, pi, pz, e1, e2, e3, e4⟩ := toks_block (pos := (pos.after (Piece.all ⟨gapOf b, b!"extern", b!" ", .Decl_Extern_Linkage, 0⟩)).after (Piece.all ⟨[], b!"\"" ++ n, b!"\"", .String, 2048⟩))
      (l := []) (o := openP b!"\n") (inner := bodyP true true i) (z := closeP (endGap true (bodyEnd true i)) b!"\n") (k := bodyP w false r)
    rw [List.nil_append] at e4
    rw [e4]
    have h2 := ho.tail.tail
    rw [written_nil, Lex.after_nil] at e1
    rw [← e1] at h2
    have h3 := h2.tail
    rw [← e2] at h3
    have h4 := h3.right
    rw [← e3] at h4
    exact .linkage (t := tokOf pos ⟨gapOf b, b!"extern", b!" ", .Decl_Extern_Linkage, 0⟩) (z := tokOf pz (closeP (endGap true (bodyEnd true i)) b!"\n")) rfl ho.tail.tokIs h0 h2.tokIs
      (ih1 true _ h3.left) rfl (ih2 w _ h4.tail)

end Verif.Round
