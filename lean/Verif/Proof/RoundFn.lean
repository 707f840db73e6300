import Verif.Proof.RoundVar
/-!
# C59: functions
-/
namespace Verif.Round
open Verif.Lex (Tok Pos Macros Piece Reads CommentText Spaces NotNext Lexes toksAt)
open Verif.Parse (TokIs Spans UpTo IdTok QualToks TypeToks SpecToks Code Balanced depth after NoAngle DefaultValue ParamName ParamValue ParamToks MoreParams ParamsToks BodyToks FnEnd
  FnHead FnToks fnSpecs fnSuffixes specWords noSpaces)

/-! ## Default values -/

theorem toksAt_split {l : List Piece} {pre post : List Tok} {t : Tok} : ∀ {p : Pos}, toksAt p l = pre ++ t :: post →
    ∃ l1 q l2, l = l1 ++ q :: l2 ∧ t = tokOf (p.after (written l1)) q ∧ pre = toksAt p l1 ∧ post = toksAt (p.after (written (l1 ++ [q]))) l2 := by
  induction l generalizing pre with
  | nil => intro p h; cases pre <;> cases h
  | cons q l ih =>
    intro p h
    rw [toksAt_cons] at h
    cases pre with
    | nil =>
      obtain ⟨h1, h2⟩ := List.cons.inj h
      exact ⟨[], q, l, rfl, h1.symm, rfl, by rw [← h2]; simp⟩
    | cons a pre =>
      obtain ⟨h1, h2⟩ := List.cons.inj h
      obtain ⟨l1, r, l2, e1, e2, e3, e4⟩ := ih h2
      refine ⟨q :: l1, r, l2, by rw [e1]; rfl, ?_, ?_, ?_⟩
      · rw [e2, written_cons, Lex.after_append]
      · rw [toksAt_cons, ← h1, ← e3]
      · rw [e4, List.cons_append, written_cons, Lex.after_append]

theorem On.byte {c : Bytes} {p : Pos} {l : List Piece} {i : Nat} (h : On c p l) (hi : i < (written l).length) : ∃ b, c[p.off + i]? = some b ∧ b ∈ written l := by
  obtain ⟨u, v, h1, h2⟩ := h
  refine ⟨(written l)[i], ?_, List.getElem_mem hi⟩
  rw [h1, h2, List.append_assoc, List.getElem?_append_right (by omega), List.getElem?_append_left (by omega), Nat.add_sub_cancel_left, List.getElem?_eq_getElem hi]

theorem On.noAngle {c : Bytes} {p : Pos} {l : List Piece} {z : Piece} {pre post : List Tok} {t : Tok} (h : On c p (l ++ [z])) (hb : ∀ b ∈ written (l ++ [z]), b ≠ 60 ∧ b ≠ 62)
    (hz : z.all ≠ []) (ht : ∀ q ∈ l, q.text ≠ []) (hs : toksAt p l = pre ++ t :: post) : NoAngle c t := by
  obtain ⟨l1, q, l2, e1, e2, -, -⟩ := toksAt_split hs
  have hq := ht q (by rw [e1]; simp)
  have hlq : 0 < q.text.length := List.length_pos_iff.mpr hq
  have hlz : 0 < z.all.length := List.length_pos_iff.mpr hz
  have hlen : (written (l ++ [z])).length = (written l1).length + q.gap.length + q.text.length + q.over.length + (written l2).length + z.all.length := by
    rw [e1]
    simp only [written_append, written_cons, written_nil, Piece.all, List.length_append, List.append_nil]
    omega
  have hst : t.start = p.off + ((written l1).length + q.gap.length) := by
    rw [e2, tokOf, Lex.after_off]
    simp only
    omega
  obtain ⟨b, h1, h2⟩ := h.byte (i := (written l1).length + q.gap.length) (by omega)
  obtain ⟨b1, h3, h4⟩ := h.byte (i := (written l1).length + q.gap.length + 1) (by omega)
  refine ⟨b, by rw [hst]; exact h1, (hb b h2).1, (hb b h2).2, fun _ => ⟨b1, ?_, (hb b1 h4).2⟩⟩
  rw [hst, Nat.add_assoc]
  exact h3

theorem sits_text {ms : Macros} {l : List Piece} {r : Bytes} : ∀ {b : Bool}, Sits ms b l r → ∀ q ∈ l, q.text ≠ [] := by
  induction l with
  | nil => intro b _ q hq; cases hq
  | cons a l ih =>
    intro b ⟨_, _, h3, h4⟩ q hq
    rcases List.mem_cons.mp hq with rfl | hq
    · exact isPiece_text h3
    · exact ih h4 q hq

/-! ## Parameters -/

def pnameP (g x : Bytes) : List Piece := if x = [] then [] else [idP g x]

def pvalueP (g : Bytes) (k : List Piece) : List Piece := if k = [] then [] else puP g b!"=" .Operator 3 :: lead b!" " k

def paramP (g : Bytes) (a : Param) : List Piece :=
  typeP g a.ty ++ (pnameP (typeGap a.ty ++ b!" ") a.name ++ pvalueP (if a.name = [] then typeGap a.ty ++ b!" " else b!" ") a.value)

/-- The space behind a parameter. -/
def paramGap (a : Param) : Bytes := if a.name = [] ∧ a.value = [] then typeGap a.ty else []

theorem paramGap_spaces (a : Param) : ∀ x ∈ paramGap a, x = 32 := by
  unfold paramGap
  split
  · exact typeGap_spaces _
  · simp

theorem after_of {b x : Bytes} (h : x ≠ []) : after b x = b ++ x := by rw [after, if_neg h]
theorem after_nil' {b : Bytes} : after b [] = [] := by rw [after, if_pos rfl]

theorem IsDefault.text_ne {ms : Macros} {k : List Piece} (h : IsDefault ms k) : written k ≠ [] := h.code.written_ne

theorem written_param {ms : Macros} {g : Bytes} {a : Param} (h : a.Ok ms) : written (paramP (g ++ b!" ") a) ++ paramGap a = g ++ a.text := by
  have ht := written_type (g := g ++ b!" ") (t := a.ty)
  rw [paramP, Param.text, written_append, written_append]
  by_cases hn : a.name = []
  · by_cases hv : a.value = []
    · have hgap : paramGap a = typeGap a.ty := if_pos ⟨hn, hv⟩
      rw [hgap, hn, hv]
      simp only [pnameP, pvalueP, if_pos, written_nil, List.append_nil, after_nil']
      rw [ht]
      simp
    · have hd := h.value hv
      have hgap : paramGap a = [] := if_neg fun hh => hv hh.2
      rw [hgap, hn, pnameP, if_pos rfl, pvalueP, if_neg hv, if_pos rfl, after_nil', after_of hd.text_ne, written_cons, hd.code.written_lead, puP_all]
      simp only [written_nil, List.nil_append, List.append_nil]
      rw [← List.append_assoc, ← List.append_assoc (written _), ← List.append_assoc (written _), ht]
      simp
  · have hgap : paramGap a = [] := if_neg fun hh => hn hh.1
    rw [hgap, pnameP, if_neg hn, after_of hn, if_neg hn, written_cons, idP_all]
    by_cases hv : a.value = []
    · rw [hv, pvalueP, if_pos rfl, written_nil, after_nil']
      simp only [List.append_nil]
      rw [← List.append_assoc, ← List.append_assoc (written _), ht]
      simp
    · have hd := h.value hv
      rw [pvalueP, if_neg hv, after_of hd.text_ne, written_cons, hd.code.written_lead, puP_all]
      simp only [written_nil, List.append_nil]
      rw [← List.append_assoc (written _), ← List.append_assoc (written _), ← List.append_assoc (written _), ht]
      simp

theorem paramGap_ends {a : Param} {r : Bytes} (hr : Ends b!",)" r) : Ends stops (paramGap a ++ r) := Ends.gap (by decide) (paramGap_spaces a) (hr.mono (by decide))

theorem IsDefault.run {ms : Macros} {k : List Piece} {r : Bytes} (h : IsDefault ms k) (hr : Ends b!",)" r) : Run ms false (lead b!" " k) r false := by
  obtain ⟨b, t, rfl, hb⟩ := hr
  simp only [List.mem_cons, List.not_mem_nil, or_false] at hb
  rcases hb with rfl | rfl
  · have := h.comma.run (r := 44 :: t) one_space rfl
    rwa [h.comma.line h.closed] at this
  · have := h.code.run (r := 41 :: t) one_space rfl
    rwa [h.code.line h.closed] at this

theorem param_run {ms : Macros} {b : Bool} {g r : Bytes} {a : Param} (hg : GapOk b g) (h : a.Ok ms) (hr : Ends b!",)" r) : Run ms b (paramP g a) (paramGap a ++ r) false := by
  rw [paramP]
  by_cases hn : a.name = []
  · by_cases hv : a.value = []
    · rw [hn, hv]
      simp only [pnameP, pvalueP, if_pos, List.append_nil]
      refine type_run hg h.ty (paramGap_ends hr) fun hs => ?_
      rw [paramGap, if_pos ⟨hn, hv⟩, typeGap, if_neg hs]
      exact .cons (by decide)
    · have hd := h.value hv
      have hgap : paramGap a = [] := if_neg fun hh => hv hh.2
      rw [hn, pnameP, if_pos rfl, pvalueP, if_neg hv, if_pos rfl, hgap, List.nil_append, List.nil_append]
      have e : ∀ m, Ends b!" " (typeGap a.ty ++ b!" " ++ m) := fun m => gap_ends
      refine .append (type_run hg h.ty ?_ fun _ => ?_) (.pu (.of (gap_name _)) (f := b!"=") (by decide) ?_ (hd.run hr))
      · rw [written_cons, puP_all, List.append_assoc, List.append_assoc]; exact (e _).mono (by decide)
      · rw [written_cons, puP_all, List.append_assoc, List.append_assoc]; exact e _
      · rw [hd.code.written_lead]; exact (Ends.cons (s := b!" ") (by decide)).not (by decide)
  · have hgap : paramGap a = [] := if_neg fun hh => hn hh.1
    rw [pnameP, if_neg hn, if_neg hn, hgap, List.nil_append]
    have e : ∀ m, Ends b!" " (typeGap a.ty ++ b!" " ++ m) := fun m => gap_ends
    have hx := h.name hn
    by_cases hv : a.value = []
    · rw [hv, pvalueP, if_pos rfl, List.append_nil]
      refine .append (type_run hg h.ty ?_ fun _ => ?_) (.id (.of (gap_name _)) hx (hr.mono (by decide)) .nil)
      · rw [written_cons, idP_all, List.append_assoc, List.append_assoc]; exact (e _).mono (by decide)
      · rw [written_cons, idP_all, List.append_assoc, List.append_assoc]; exact e _
    · have hd := h.value hv
      rw [pvalueP, if_neg hv]
      refine .append (type_run hg h.ty ?_ fun _ => ?_) (.append (.id (.of (gap_name _)) hx ?_ .nil) (.pu (.of one_space) (f := b!"=") (by decide) ?_ (hd.run hr)))
      · rw [written_append, written_cons, idP_all, List.append_assoc, List.append_assoc, List.append_assoc]; exact (e _).mono (by decide)
      · rw [written_append, written_cons, idP_all, List.append_assoc, List.append_assoc, List.append_assoc]; exact e _
      · exact .cons (by decide)
      · rw [hd.code.written_lead]; exact (Ends.cons (s := b!" ") (by decide)).not (by decide)

theorem On.pname {c : Bytes} {ms : Macros} {p : Pos} {g x : Bytes} (hx : x ≠ [] → IsName ms x) (h : On c p (pnameP g x)) : ParamName c x (toksAt p (pnameP g x)) := by
  unfold pnameP at *
  split
  · next hn => subst hn; exact .none
  · next hn => rw [if_neg hn] at h; exact .name (h.idTok (hx hn).word)

theorem On.pvalue {c : Bytes} {ms : Macros} {p : Pos} {g : Bytes} {k : List Piece} {z : Piece} (hk : k ≠ [] → IsDefault ms k) (h : On c p (pvalueP g k ++ [z])) (hz : z.all ≠ [])
    (hb : ∀ b ∈ z.all, b ≠ 60 ∧ b ≠ 62) : ParamValue c (written k) (toksAt p (pvalueP g k)) := by
  unfold pvalueP at *
  split
  · next hn => subst hn; exact .none
  · next hn =>
    rw [if_neg hn, List.cons_append] at h
    have hd := hk hn
    rw [toksAt_cons]
    have e := h.tail
    have hlw := hd.code.written_lead (g := b!" ")
    refine .value h.tokIs ⟨fun pre t post hs => ?_, ?_⟩ (hd.code.spans hd.closed e.left) hd.tidy
    · have hc := hd.code.codes t (by rw [hs]; simp)
      refine ⟨hc, e.noAngle (fun b hx => ?_) hz (fun q hq => ?_) hs, fun ht => ?_⟩
      · rw [written_append, hlw] at hx
        simp only [List.mem_append, written_cons, written_nil, List.append_nil] at hx
        rcases hx with (hx | hx) | hx
        · cases hx with
          | head => decide
          | tail _ h => cases h
        · exact hd.angle b hx
        · exact hb b hx
      · exact sits_text (hd.code.run one_space (r := b!")") rfl).1 q hq
      · obtain ⟨p', t', q', e1, e2, e3⟩ := split_types lead_shape hs
        rw [depth_types e2]
        exact hd.shallow.1 p' t' q' e1 (by rw [← e3]; exact ht)
    · rw [depth_types lead_shape]; exact hd.shallow.2

theorem On.param {c : Bytes} {ms : Macros} {p : Pos} {g : Bytes} {a : Param} {z : Piece} (ha : a.Ok ms) (h : On c p (paramP g a ++ [z])) (hz : z.all ≠ [])
    (hb : ∀ b ∈ z.all, b ≠ 60 ∧ b ≠ 62) : ParamToks c a.text (toksAt p (paramP g a)) := by
  rw [paramP, List.append_assoc, List.append_assoc] at h
  have := ParamToks.mk (h.left.type ha.ty) (h.right.left.pname ha.name) (h.right.right.pvalue ha.value hz hb)
  rw [paramP, toksAt_append, toksAt_append, Param.text, Ty.text]
  simp only [List.append_assoc] at this ⊢
  exact this

/-- The parameters behind `a`, and the closing parenthesis. -/
def moreP (a : Param) : List Param → List Piece
  | [] => [puP (paramGap a) b!")" .Paren_Close 0]
  | b :: l => puP (paramGap a) b!"," .Comma 1 :: (paramP b!"  " b ++ moreP b l)

def paramsP : List Param → List Piece
  | [] => [puP [] b!"(" .Paren_Open 0, puP [] b!")" .Paren_Close 0]
  | a :: l => puP [] b!"(" .Paren_Open 0 :: (paramP b!" " a ++ moreP a l)

theorem written_more {ms : Macros} {l : List Param} : ∀ {a : Param} {g : Bytes}, a.Ok ms → (∀ x ∈ l, x.Ok ms) →
    written (paramP (g ++ b!" ") a ++ moreP a l) = g ++ b!", ".intercalate (a.text :: l.map Param.text) ++ b!")" := by
  induction l with
  | nil =>
    intro a g ha _
    rw [moreP, written_append, written_cons, puP_all, written_nil, List.append_nil, ← List.append_assoc, written_param ha]
    simp [List.intercalate]
  | cons b l ih =>
    intro a g ha hl
    have := ih (a := b) (g := b!" ") (hl b List.mem_cons_self) (fun x hx => hl x (List.mem_cons_of_mem _ hx))
    rw [moreP, written_append, written_cons, puP_all, List.append_assoc, ← List.append_assoc (written _) (paramGap a), written_param ha]
    rw [show (b!" " ++ b!" " : Bytes) = b!"  " from rfl] at this
    rw [this, List.map_cons]
    simp [List.intercalate, List.intersperse]

theorem written_params {ms : Macros} {l : List Param} (h : ∀ x ∈ l, x.Ok ms) : written (paramsP l) = b!"(" ++ b!", ".intercalate (l.map Param.text) ++ b!")" := by
  cases l with
  | nil => rfl
  | cons a l =>
    have := written_more (g := []) (h a List.mem_cons_self) fun x hx => h x (List.mem_cons_of_mem _ hx)
    rw [paramsP, written_cons, puP_all]
    rw [List.nil_append, List.nil_append] at this
    rw [this, List.map_cons]
    simp

theorem more_head {a : Param} {l : List Param} {r : Bytes} : ∃ m, Ends b!",)" m ∧ written (moreP a l) ++ r = paramGap a ++ m := by
  cases l with
  | nil => exact ⟨b!")" ++ r, .cons (by decide), by simp [moreP]⟩
  | cons b l => exact ⟨b!"," ++ (written (paramP b!"  " b ++ moreP b l) ++ r), .cons (by decide), by simp [moreP]⟩

theorem gap_spaces {g : Bytes} (h : ∀ x ∈ g, x = 32) : Spaces g := fun x hx => by rw [h x hx]; decide

theorem more_run {ms : Macros} {r : Bytes} {l : List Param} : ∀ {a : Param}, (∀ x ∈ l, x.Ok ms) → Run ms false (moreP a l) r false := by
  induction l with
  | nil => intro a _; exact .pu (.of (gap_spaces (paramGap_spaces a))) (f := []) (by decide) notNext_none .nil
  | cons b l ih =>
    intro a h
    refine .pu (.of (gap_spaces (paramGap_spaces a))) (f := []) (by decide) notNext_none (.append ?_ (ih fun x hx => h x (List.mem_cons_of_mem _ hx)))
    obtain ⟨m, h1, h2⟩ := more_head (a := b) (l := l) (r := r)
    rw [h2]
    exact param_run (.of two_spaces) (h b List.mem_cons_self) h1

theorem params_run {ms : Macros} {r : Bytes} {l : List Param} (h : ∀ x ∈ l, x.Ok ms) : Run ms false (paramsP l) r false := by
  cases l with
  | nil => exact .pu .nil (f := []) (by decide) notNext_none (.pu .nil (f := []) (by decide) notNext_none .nil)
  | cons a l =>
    refine .pu .nil (f := []) (by decide) notNext_none (.append ?_ (more_run fun x hx => h x (List.mem_cons_of_mem _ hx)))
    obtain ⟨m, h1, h2⟩ := more_head (a := a) (l := l) (r := r)
    rw [h2]
    exact param_run (.of one_space) (h a List.mem_cons_self) h1

/-- The first piece behind a parameter. -/
theorem more_first {a : Param} {l : List Param} : ∃ z m, moreP a l = z :: m ∧ z.all ≠ [] ∧ ∀ b ∈ z.all, b ≠ 60 ∧ b ≠ 62 := by
  have key : ∀ {x : Bytes} {ty : TokType} {fl : Nat}, x = b!"," ∨ x = b!")" → (puP (paramGap a) x ty fl).all ≠ [] ∧ ∀ b ∈ (puP (paramGap a) x ty fl).all, b ≠ 60 ∧ b ≠ 62 := by
    intro x ty fl hx
    rw [puP_all]
    refine ⟨by rcases hx with rfl | rfl <;> simp, fun b hb => ?_⟩
    rcases List.mem_append.mp hb with hb | hb
    · rw [paramGap_spaces a b hb]; decide
    · rcases hx with rfl | rfl <;> (cases hb with | head => decide | tail _ h => cases h)
  cases l with
  | nil => exact ⟨_, _, rfl, key (.inr rfl)⟩
  | cons b l => exact ⟨_, _, rfl, key (.inl rfl)⟩

theorem On.cut {c : Bytes} {p : Pos} {l m : List Piece} {z : Piece} (h : On c p (l ++ z :: m)) : On c p (l ++ [z]) := by
  rw [List.append_cons] at h
  exact h.left

theorem On.paramThen {c : Bytes} {ms : Macros} {p : Pos} {g : Bytes} {a : Param} {l : List Param} (ha : a.Ok ms) (h : On c p (paramP g a ++ moreP a l)) :
    ParamToks c a.text (toksAt p (paramP g a)) := by
  obtain ⟨z, m, h1, h2, h3⟩ := more_first (a := a) (l := l)
  rw [h1] at h
  exact h.cut.param ha h2 h3

theorem On.more {c : Bytes} {ms : Macros} {l : List Param} : ∀ {a : Param} {p : Pos}, (∀ x ∈ l, x.Ok ms) → On c p (moreP a l) →
    ∃ us z, toksAt p (moreP a l) = us ++ [z] ∧ MoreParams c (Verif.Parse.ParamToks c) (l.map Param.text) us ∧ TokIs c z .Paren_Close 0 b!")" := by
  induction l with
  | nil => intro a p _ h; exact ⟨[], _, rfl, .nil, h.tokIs⟩
  | cons b l ih =>
    intro a p hl h
    rw [moreP] at h ⊢
    obtain ⟨us, z, h1, h2, h3⟩ := ih (a := b) (fun x hx => hl x (List.mem_cons_of_mem _ hx)) h.tail.right
    refine ⟨_, z, ?_, .cons h.tokIs (h.tail.paramThen (hl b List.mem_cons_self)) h2, h3⟩
    rw [toksAt_cons, toksAt_append, h1]
    simp

theorem On.params {c : Bytes} {ms : Macros} {l : List Param} {p : Pos} (hl : ∀ x ∈ l, x.Ok ms) (h : On c p (paramsP l)) :
    ParamsToks c (b!", ".intercalate (l.map Param.text)) (toksAt p (paramsP l)) := by
  cases l with
  | nil => exact .none h.tokIs h.tail.tokIs
  | cons a l =>
    rw [paramsP] at h ⊢
    obtain ⟨us, z, h1, h2, h3⟩ := On.more (a := a) (fun x hx => hl x (List.mem_cons_of_mem _ hx)) h.tail.right
    have := ParamsToks.some h.tokIs (h.tail.paramThen (hl a List.mem_cons_self)) h2 h3
    rw [toksAt_cons, toksAt_append, h1, List.map_cons]
    simpa using this

/-! ## Specifiers of functions -/

/-- Specifiers as words, the first one behind the gap `g`. -/
def wordsP (g : Bytes) : List Specifier → List Piece
  | [] => []
  | s :: l => specP g s :: specsP (fun _ => b!" ") l

theorem written_words {l : List Specifier} : written (wordsP b!" " l) = specWords l := by
  cases l with
  | nil => rfl
  | cons s l => rw [wordsP, written_cons, written_specs, specP_all, specWords, List.flatMap_cons]

theorem words_tail {ms : Macros} {r : Bytes} {l : List Specifier} (hr : Ends b!" \n;" r) (hl : ∀ s ∈ l, s ∈ readable ∧ s ≠ .Ref) : Run ms false (specsP (fun _ => b!" ") l) r false := by
  induction l with
  | nil => exact .nil
  | cons s l ih =>
    have hs := hl s List.mem_cons_self
    refine .cons (.of one_space) (spec_reads hs.1 ?_ fun hh => absurd hh hs.2) rfl (ih fun x hx => hl x (List.mem_cons_of_mem _ hx))
    cases l with
    | nil => exact hr.mono (by decide)
    | cons t l => exact .cons (by decide)

theorem words_run {ms : Macros} {b : Bool} {g r : Bytes} {s : Specifier} {l : List Specifier} (hg : GapOk b g) (hr : Ends b!" \n;" r) (hl : ∀ x ∈ s :: l, x ∈ readable ∧ x ≠ .Ref) :
    Run ms b (wordsP g (s :: l)) r false := by
  have hs := hl s List.mem_cons_self
  refine .cons hg (spec_reads hs.1 ?_ fun hh => absurd hh hs.2) rfl (words_tail hr fun x hx => hl x (List.mem_cons_of_mem _ hx))
  cases l with
  | nil => exact hr.mono (by decide)
  | cons t l => exact .cons (by decide)

theorem On.words {c : Bytes} {p : Pos} {g : Bytes} {l : List Specifier} (h : On c p (wordsP g l)) : SpecToks c l (toksAt p (wordsP g l)) := by
  cases l with
  | nil => exact .nil
  | cons s l => exact .cons h.tokIs (specs_toks h.tail)

/-! ## Bodies of functions -/

def closeP (g e : Bytes) : Piece := ⟨g, b!"}", e, .BraceCurly_Close, 512⟩

def endP : Option (List Piece) → List Piece
  | none => [semiP]
  | some k => puP b!"\n" b!"{" .BraceCurly_Open 0 :: (lead b!"\n" k ++ [closeP (if k = [] then b!"\n\n" else []) b!"\n"])

theorem bare_over {k : List Piece} {q : Piece} (h : k.getLast? = some q) : bare k ++ q.over = written k := by
  induction k with
  | nil => cases h
  | cons a l ih =>
    cases l with
    | nil => cases h; simp [bare, Piece.all]
    | cons b l =>
      rw [List.getLast?_cons_cons] at h
      rw [bare, List.append_assoc, ih h, ← written_cons (q := a)]

theorem getLast_ex {α : Type} {k : List α} (h : k ≠ []) : ∃ q, k.getLast? = some q := by
  cases hl : k.getLast? with
  | none => exact absurd (List.getLast?_eq_none_iff.mp hl) h
  | some l => exact ⟨l, rfl⟩

theorem IsFnBody.written {ms : Macros} {k : List Piece} (h : IsFnBody ms k) (h0 : k ≠ []) : written k = bare k ++ b!"\n" := by
  obtain ⟨q, hq⟩ := getLast_ex h0
  rw [← bare_over hq, (h.ends q hq).2]

theorem IsFnBody.lead {ms : Macros} {k : List Piece} (h : IsFnBody ms k) (h0 : k ≠ []) (g : Bytes) : Round.written (Round.lead g k) = g ++ bare k ++ b!"\n" := by
  rw [written_lead h0 fun q hq => (h.tight q hq).1, h.written h0, List.append_assoc]

theorem written_end {ms : Macros} {e : Option (List Piece)} (h : ∀ k, e = some k → IsFnBody ms k) : written (endP e) = Fn.ending e := by
  cases e with
  | none => rfl
  | some k =>
    by_cases h0 : k = []
    · subst h0; rfl
    · rw [endP, if_neg h0, written_cons, written_append, (h k rfl).lead h0, Fn.ending, puP_all]
      simp [closeP, Piece.all]

theorem newline_space : Spaces b!"\n" := by intro x hx; cases hx with | head => decide | tail _ h => cases h
theorem newlines_space : Spaces b!"\n\n" := by intro x hx; cases hx with | head => decide | tail _ h => cases h with | head => decide | tail _ h => cases h

theorem close_run {ms : Macros} {b : Bool} {g e r : Bytes} (hg : GapOk b g) (he : Lex.LineEnd e r) : Run ms b [closeP g e] r (lineStart false (b!"}" ++ e)) := by
  refine ⟨⟨hg.1, hg.2, .token (.braceClose (by show Lex.LineEnd e _; exact he)), trivial⟩, ?_⟩
  rw [written_cons, written_nil, List.append_nil, closeP, Piece.all]
  simp only [List.append_assoc]
  rw [lineStart_append]
  unfold lineStart
  cases hx : (b!"}" ++ e).getLast? with
  | none => rw [List.getLast?_eq_none_iff] at hx; cases hx
  | some => rfl

theorem end_run {ms : Macros} {e : Option (List Piece)} {r : Bytes} (h : ∀ k, e = some k → IsFnBody ms k) : Run ms false (endP e) r true := by
  cases e with
  | none => exact .semi
  | some k =>
    have hk := h k rfl
    refine .pu (.of newline_space) (f := []) (by decide) notNext_none ?_
    by_cases h0 : k = []
    · subst h0
      exact close_run (.of newlines_space) lineEnd_lf
    · rw [if_neg h0]
      refine .append (b1 := true) ⟨lead_sits (.of newline_space) (fun q hq => (hk.tight q hq).2) (sits_head ?_ hk.sits), ?_⟩ (close_run .nil lineEnd_lf)
      · rfl
      · rw [hk.lead h0, lineStart_append]
        rfl

theorem On.body {c : Bytes} {ms : Macros} {e : Option (List Piece)} {p : Pos} (h : ∀ k, e = some k → IsFnBody ms k) (ho : On c p (endP e)) : FnEnd c (Fn.ending e) (toksAt p (endP e)) := by
  cases e with
  | none => exact .decl ho.tokIs
  | some k =>
    have hk := h k rfl
    rw [endP] at ho ⊢
    rw [Fn.ending]
    refine .body ?_
    rw [toksAt_cons, toksAt_append, toksAt_cons, toksAt_nil]
    by_cases h0 : k = []
    · subst h0
      refine .empty ho.tokIs ho.tail.tokIs ?_
      simp only [tokOf, puP, Lex.after_off, Piece.all, closeP]
      simp
      omega
    · obtain ⟨q, hq, hg⟩ := lead_head (g := b!"\n") h0
      obtain ⟨l, hl⟩ := getLast_ex h0
      obtain ⟨l', h1, h2, -⟩ := lead_last (g := b!"\n") hl
      have hs := ho.tail.left.spans hq h1 (x := bare k) (by rw [hk.lead h0, hg, h2, (hk.ends l hl).2])
      refine .text ho.tokIs (balanced_types lead_shape hk.balanced) hs ?_ ho.tail.right.tokIs
      intro hb
      have := hk.written h0
      rw [hb] at this
      have hsit := hk.sits
      cases hkk : k with
      | nil => exact h0 hkk
      | cons a m =>
        rw [hkk] at this hsit
        have ht := hk.tight a (by rw [hkk]; rfl)
        cases hsit.2.2.1 with
        | newline => exact ht.2 rfl
        | comment hc =>
          have hh := congrArg List.head? this
          rw [written_cons, Piece.all, ht.1] at hh
          have hf := comment_first hc
          have hne := comment_ne hc
          obtain ⟨y, x', rfl⟩ := List.exists_cons_of_ne_nil hne
          have e : y = 10 := Option.some.inj hh
          exact absurd (hf y rfl) (by rw [e]; decide)
        | token hr =>
          have hh := congrArg List.head? this
          rw [written_cons, Piece.all, ht.1] at hh
          have hf := reads_first hr
          have hne := Lex.reads_text hr
          cases hx : a.text with
          | nil => exact hne hx
          | cons y x =>
            rw [hx] at hh hf
            have e : y = 10 := Option.some.inj hh
            exact absurd (hf y rfl) (by rw [e]; decide)

/-! ## Functions -/

/-- Specifiers, type and name of a function. -/
def fheadP (g : Bytes) (l : List Specifier) (t : Ty) (n : Qual) : List Piece :=
  wordsP g l ++ (typeP (if l = [] then g else b!"\n") t ++ qualP (typeGap t ++ b!" ") n)

def fnP (g : Bytes) (f : Fn) : List Piece := fheadP g f.lead f.ty f.name ++ (paramsP f.params ++ (wordsP b!" " f.trail ++ endP f.body))

/-- The space in front of a function with specifiers. -/
def fnLead (f : Fn) : Bytes := if f.lead = [] then [] else b!" "

theorem written_fhead {g : Bytes} {l : List Specifier} {t : Ty} {n : Qual} :
    written (fheadP (g ++ (if l = [] then [] else b!" ")) l t n) = g ++ (specWords l ++ (if l = [] then [] else b!"\n") ++ t.text ++ b!" " ++ n.text) := by
  have ht : ∀ g, written (typeP g t) ++ (typeGap t ++ b!" " ++ n.text) = g ++ t.text ++ (b!" " ++ n.text) := fun g => by
    rw [List.append_assoc, ← List.append_assoc, written_type]
  rw [fheadP, written_append, written_append, written_qual, ht]
  cases l with
  | nil => simp [wordsP, specWords]
  | cons s l =>
    rw [wordsP, if_neg (by simp), if_neg (by simp), if_neg (by simp), written_cons, written_specs, specP_all, specWords, List.flatMap_cons]
    simp only [List.append_assoc]

theorem written_fn {ms : Macros} {l : List Specifier} {g : Bytes} {f : Fn} (h : f.Ok ms l) : written (fnP (g ++ fnLead f) f) = g ++ f.text := by
  rw [fnP, written_append, written_append, written_append, fnLead, written_fhead, written_params h.params, written_words, written_end h.body, Fn.text]
  simp

theorem fhead_run {ms : Macros} {b : Bool} {g r : Bytes} {l : List Specifier} {t : Ty} {n : Qual} (hg : GapOk b g) (hl : ∀ s ∈ l, s ∈ readable ∧ s ≠ .Ref) (ht : t.Ok ms)
    (hn : n.Ok ms) (hr : Ends stops r) : Run ms b (fheadP g l t n) r false := by
  have h2 : ∀ {b g}, GapOk b g → Run ms b (typeP g t ++ qualP (typeGap t ++ b!" ") n) r false := fun hg => by
    have e : Ends b!" " (written (qualP (typeGap t ++ b!" ") n) ++ r) := by
      rw [written_qual, List.append_assoc]
      exact gap_ends
    exact .append (type_run hg ht (e.mono (by decide)) fun _ => e) (qual_run (.of (gap_name t)) hn hr)
  rw [fheadP]
  cases l with
  | nil => exact h2 hg
  | cons s l =>
    have e : Ends b!" \n;" (written (typeP (if s :: l = [] then g else b!"\n") t ++ qualP (typeGap t ++ b!" ") n) ++ r) := by
      rw [if_neg (by simp), written_append]
      cases htn : t.name with
      | name q => rw [typeP, htn]; exact .cons (by decide)
      | native f m => rw [typeP, htn]; exact .cons (by decide)
    exact .append (words_run hg e hl) (by rw [if_neg (by simp)]; exact h2 (.of newline_space))

theorem suffixes_readable : ∀ s ∈ fnSuffixes, s ∈ readable ∧ s ≠ .Ref := by decide

theorem end_ends {e : Option (List Piece)} {r : Bytes} : Ends b!"\n;" (written (endP e) ++ r) := by
  cases e <;> exact .cons (by decide)

theorem fn_run {ms : Macros} {b : Bool} {g r : Bytes} {l : List Specifier} {f : Fn} (hg : GapOk b g) (h : f.Ok ms l) (hl : ∀ s ∈ l, s ≠ .External_Linkage → s ∈ readable ∧ s ≠ .Ref) :
    Run ms b (fnP g f) r true := by
  refine .append (fhead_run hg (fun s hs => hl s (h.lead s hs).1 (h.lead s hs).2) h.ty h.name ?_) (.append (params_run h.params) (.append (b1 := false) ?_ (end_run h.body)))
  · rw [written_append, written_params h.params]; exact .cons (by decide)
  · cases ht : f.trail with
    | nil => exact .nil
    | cons s m =>
      exact words_run (.of one_space) (end_ends.mono (by decide)) fun x hx => suffixes_readable x (h.trail x (by rw [ht]; exact hx)).1

theorem letter_noSpace {x : Bytes} (h : ∀ b ∈ x, Strip.Letter b) : noSpaces x = x ∧ 0 ∉ x ∨ 0 ∈ x := by
  by_cases h0 : (0 : UInt8) ∈ x
  · exact .inr h0
  · refine .inl ⟨?_, h0⟩
    unfold noSpaces
    rw [List.filter_eq_self]
    intro b hb
    have := (h b hb).1
    unfold Strip.Blank at this
    simpa using this

theorem word_noZero {x : Bytes} (h : Lex.IsWord x) : 0 ∉ x := by
  obtain ⟨a, r, rfl, h1, h2⟩ := h
  intro hh
  rcases List.mem_cons.mp hh with hh | hh
  · subst hh; rcases h1 with h | h <;> exact absurd h (by decide)
  · rcases h2 0 hh with h | h <;> exact absurd h (by decide)

theorem qual_noZero {q : Qual} {ms : Macros} (hq : q.Ok ms) : 0 ∉ q.text := by
  intro h
  rw [Qual.text] at h
  rcases List.mem_append.mp h with h | h
  · exact word_noZero (hq _ List.mem_cons_self).word h
  · obtain ⟨x, hx, h⟩ := List.mem_flatMap.mp h
    rcases List.mem_append.mp h with h | h
    · exact absurd h (by decide)
    · exact word_noZero (hq _ (List.mem_cons_of_mem _ hx)).word h

theorem qual_noSpaces {q : Qual} {ms : Macros} (hq : q.Ok ms) : noSpaces q.text = q.text :=
  (letter_noSpace (qual_letters hq)).elim (·.1) fun h => absurd h (qual_noZero hq)

theorem name_first {g : Bytes} {n : TypeName} {ms : Macros} (h : n.Ok ms) : ∃ q l, nameP g n = q :: l ∧ q.gap = g ∧ q.over = [] ∧ Lex.IsWord q.text ∧
    ((q.type = .Identifier ∧ q.flags = 0) ∨ q.type ∈ Parse.builtinTypes) := by
  cases n with
  | name q => exact ⟨_, _, rfl, rfl, rfl, (h _ List.mem_cons_self).word, .inl ⟨rfl, rfl⟩⟩
  | native f l => exact ⟨_, _, rfl, rfl, rfl, (h f List.mem_cons_self).1, .inr (h f List.mem_cons_self).2⟩

theorem On.fhead {c : Bytes} {ms : Macros} {p : Pos} {g : Bytes} {l : List Specifier} {t : Ty} {n : Qual} (hl : ∀ s ∈ l, s ∈ fnSpecs) (ht : t.Ok ms) (hn : n.Ok ms)
    (h : On c p (fheadP g l t n)) : ∃ f, FnHead c f l (specWords l ++ (if l = [] then [] else b!"\n") ++ t.text ++ b!" " ++ n.text) (toksAt p (fheadP g l t n)) ∧ f.type ≠ .Spec_Const := by
  rw [fheadP] at h ⊢
  rw [toksAt_append, toksAt_append, ← List.append_assoc]
  obtain ⟨q, m, h1, -, -, -, h5⟩ := name_first (g := if l = [] then g else b!"\n") ht.name
  have hk := FnHead.mk (f := tokOf (p.after (written (wordsP g l))) q) (by rw [typeP, h1]; rfl) h.left.words hl (h.right.left.type ht) (h.right.right.qual hn) (qual_noZero hn)
    (by rw [qual_noSpaces hn]; exact qual_ne hn)
  rw [qual_noSpaces hn] at hk
  refine ⟨_, hk, ?_⟩
  show q.type ≠ .Spec_Const
  intro hh
  rw [hh] at h5
  rcases h5 with h5 | h5
  · cases h5.1
  · exact absurd h5 (by decide)

theorem On.fn {c : Bytes} {ms : Macros} {p : Pos} {g : Bytes} {f : Fn} (h : f.Ok ms fnSpecs) (ho : On c p (fnP g f)) :
    ∃ t, FnToks ms c t f.text (toksAt p (fnP g f)) ∧ t.type ≠ .Spec_Const := by
  rw [fnP] at ho ⊢
  obtain ⟨t, h1, h2⟩ := ho.left.fhead (fun s hs => (h.lead s hs).1) h.ty h.name
  refine ⟨t, ?_, h2⟩
  have := FnToks.mk (ms := ms) h1 (ho.right.left.params h.params) ho.right.right.left.words (fun s hs => (h.trail s hs).1) (fun s hs => (h.trail s hs).2) h.few (ho.right.right.right.body h.body)
  rw [toksAt_append, toksAt_append, toksAt_append, Fn.text]
  simp only [List.append_assoc] at this ⊢
  exact this

end Verif.Round
