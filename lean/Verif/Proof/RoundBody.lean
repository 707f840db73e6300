import Verif.Proof.RoundCalls
/-!
# C59: bodies as pieces
-/
namespace Verif.Round
open Verif.Lex (Tok Pos Macros Piece Reads CommentText Spaces NotNext Lexes toksAt)
open Verif.Parse (TokIs Spans IdTok QualToks Code Balanced NoComment RecordKind RecordHead UnionHead MembersToks DeclToks DeclHead Label Place placeSpecs firstSpecs vendorTypes builtinTypes)

def keyOf : RecordKind → Bytes
  | .cls => b!"class"
  | .struct => b!"struct"

def recHeadP (g : Bytes) : RecHead → List Piece
  | .named k n f => kwP g (keyOf k) k.tok :: (qualP b!" " n ++ if f then [kwP b!" " b!"final" .Spec_Final] else [])
  | .unnamed => [kwP g b!"struct" .Decl_Struct]

def recGap : RecHead → Bytes
  | .named _ _ _ => []
  | .unnamed => b!" "

def unionHeadP (g n : Bytes) : List Piece := kwP g b!"union" .Decl_Union :: if n = [] then [] else [idP b!" " n]

def unionGap (n : Bytes) : Bytes := if n = [] then b!" " else []

def accTok : Access → TokType
  | .pub => .Access_Public
  | .pro => .Access_Protected
  | .pri => .Access_Private

/-- The line break behind an opening brace or a label. -/
def gapOf (b : Bool) : Bytes := if b then b!"\n" else []

def nlP : Piece := ⟨[], b!"\n", [], .NewLine, 0⟩
def commentP (g x : Bytes) : Piece := ⟨g, x, [], .Comment, 0⟩
def openP (g : Bytes) : Piece := puP g b!"{" .BraceCurly_Open 0

/-- The white space behind the body, with the line break in front of the closing brace (`w`). -/
def endGap (w e : Bool) : Bytes := if e then (if w then b!"\n\n" else b!"\n") else []

/-- A body as pieces, with the line break in front of the closing brace (`w`). -/
def bodyP (w b : Bool) : Body → List Piece
  | .nil => if w && !b then [nlP] else []
  | .newline r => nlP :: bodyP w false r
  | .comment x r => commentP (gapOf b) x :: bodyP w false r
  | .label a r => kwP (gapOf b) a.word (accTok a) :: puP [] b!":" .Assign_Classifer 0 :: bodyP w true r
  | .var v r => varP (gapOf b) v ++ bodyP w false r
  | .fn f r => fnP (gapOf b ++ fnLead f) f ++ bodyP w false r
  | .alias a r => aliasP (gapOf b) a ++ bodyP w false r
  | .forward k n r => kwP (gapOf b) (keyOf k) k.tok :: idP b!" " n :: semiP :: bodyP w false r
  | .enumFwd n r => kwP (gapOf b) b!"enum" .Decl_Enum :: idP b!" " n :: semiP :: bodyP w false r
  | .enum e r => enumP (gapOf b) e ++ bodyP w false r
  | .record h i r => recHeadP (gapOf b) h ++ openP (recGap h ++ b!"\n") :: (bodyP true true i ++ closeP (endGap true (bodyEnd true i)) [] :: semiP :: bodyP w false r)
  | .union n i r => unionHeadP (gapOf b) n ++ openP (unionGap n ++ b!"\n") :: (bodyP true true i ++ closeP (endGap true (bodyEnd true i)) [] :: semiP :: bodyP w false r)
  | .space n i r => kwP (gapOf b) b!"namespace" .Decl_Namespace :: (qualP b!" " n ++ openP b!"\n" :: (bodyP true true i ++ closeP (endGap true (bodyEnd true i)) b!"\n" :: bodyP w false r))
  | .linkage n i r => ⟨gapOf b, b!"extern", b!" ", .Decl_Extern_Linkage, 0⟩ :: ⟨[], b!"\"" ++ n, b!"\"", .String, 2048⟩ :: openP b!"\n" ::
      (bodyP true true i ++ closeP (endGap true (bodyEnd true i)) b!"\n" :: bodyP w false r)

/-! ## The text -/

@[simp] theorem openP_all {g : Bytes} : (openP g).all = g ++ b!"{" := puP_all
@[simp] theorem nlP_all : nlP.all = b!"\n" := rfl
@[simp] theorem commentP_all {g x : Bytes} : (commentP g x).all = g ++ x := by simp [commentP, Piece.all]

theorem written_recHead {g : Bytes} {h : RecHead} : written (recHeadP g h) ++ recGap h = g ++ h.text := by
  cases h with
  | named k n f =>
    rw [recHeadP, recGap, RecHead.text, written_cons, written_append, written_qual, kwP_all]
    cases f <;> cases k <;> simp [keyOf, RecordKind.word]
  | unnamed => simp [recHeadP, recGap, RecHead.text]

theorem written_unionHead {g n : Bytes} : written (unionHeadP g n) ++ unionGap n = g ++ (b!"union " ++ n) := by
  rw [unionHeadP, unionGap]
  by_cases h : n = []
  · subst h; simp
  · simp [h]

/-- A body in braces. -/
def blockP (l : List Piece) (g : Bytes) (i : Body) (e : Bytes) (k : List Piece) : List Piece :=
  l ++ openP (g ++ b!"\n") :: (bodyP true true i ++ closeP (endGap true (bodyEnd true i)) e :: k)

theorem written_block {l k : List Piece} {g h t e : Bytes} {i : Body} (h1 : written l ++ g = h ++ t)
    (h2 : ∀ w, written (bodyP w true i) ++ endGap w (bodyEnd true i) = gapOf true ++ (i.text ++ if w then b!"\n" else [])) :
    written (blockP l g i e k) = h ++ (t ++ b!"\n{\n" ++ i.text ++ b!"\n}" ++ e ++ written k) := by
  have h2 : written (bodyP true true i) ++ endGap true (bodyEnd true i) = b!"\n" ++ (i.text ++ b!"\n") := h2 true
  rw [blockP, written_append, written_cons, written_append, written_cons, openP_all, closeP_all]
  have : ∀ x i z : Bytes, x ++ ((g ++ b!"\n" ++ b!"{") ++ (i ++ ((z ++ b!"}" ++ e) ++ written k))) = (x ++ g) ++ (b!"\n{" ++ ((i ++ z) ++ (b!"}" ++ (e ++ written k)))) := by simp
  rw [this, h1, h2]
  simp

theorem written_body {ms : Macros} {p : Place} {b : Bool} {x : Body} (h : Body.Ok ms p b x) : ∀ w, written (bodyP w b x) ++ endGap w (bodyEnd b x) = gapOf b ++ (x.text ++ if w then b!"\n" else []) := by
  induction h with
  | @nil p b => intro w; cases w <;> cases b <;> rfl
  | newline _ ih =>
    intro w
    have := ih w
    rw [gapOf] at this
    simp only [bodyP, bodyEnd, Body.text, written_cons, List.append_assoc, this]
    simp [gapOf]
  | comment _ _ ih => intro w; simp only [bodyP, bodyEnd, Body.text, written_cons, List.append_assoc, ih w, commentP_all]; simp [gapOf]
  | @label b a r _ ih => intro w; simp only [bodyP, bodyEnd, Body.text, written_cons, List.append_assoc, ih w, kwP_all, puP_all]; simp [gapOf]
  | var _ hv _ ih => intro w; simp only [bodyP, bodyEnd, Body.text, written_append, List.append_assoc, ih w, written_var hv.ok]; simp [gapOf]
  | member hv _ ih => intro w; simp only [bodyP, bodyEnd, Body.text, written_append, List.append_assoc, ih w, written_var hv.ok]; simp [gapOf]
  | fn _ hf _ ih => intro w; simp only [bodyP, bodyEnd, Body.text, written_append, List.append_assoc, ih w, written_fn hf.ok]; simp [gapOf]
  | alias _ ha _ _ _ ih => intro w; simp only [bodyP, bodyEnd, Body.text, written_append, List.append_assoc, ih w, written_alias ha]; simp [gapOf]
  | @forward p b k n r _ _ ih =>
    intro w
    simp only [bodyP, bodyEnd, Body.text, written_cons, List.append_assoc, ih w, kwP_all, idP_all, semiP_all]
    cases k <;> simp [gapOf, keyOf, RecordKind.word]
  | enumFwd _ _ ih => intro w; simp only [bodyP, bodyEnd, Body.text, written_cons, List.append_assoc, ih w, kwP_all, idP_all, semiP_all]; simp [gapOf]
  | enum he _ _ ih => intro w; simp only [bodyP, bodyEnd, Body.text, written_append, List.append_assoc, ih w, written_enum he]; simp [gapOf]
  | @record p b h i r _ _ _ ih1 ih2 =>
    intro w
    have := written_block (e := []) (k := semiP :: bodyP w false r) (written_recHead (g := gapOf b) (h := h)) ih1
    rw [written_cons, semiP_all] at this
    rw [bodyP, ← blockP, this, bodyEnd, Body.text]
    simp only [List.append_assoc, ih2 w]
    simp [gapOf]
  | @union p b n i r _ _ _ ih1 ih2 =>
    intro w
    have := written_block (e := []) (k := semiP :: bodyP w false r) (written_unionHead (g := gapOf b) (n := n)) ih1
    rw [written_cons, semiP_all] at this
    rw [bodyP, ← blockP, this, bodyEnd, Body.text]
    simp only [List.append_assoc, ih2 w]
    simp [gapOf]
  | @space p b n i r _ _ _ _ ih1 ih2 =>
    intro w
    have := written_block (l := kwP (gapOf b) b!"namespace" .Decl_Namespace :: qualP b!" " n) (g := []) (h := gapOf b) (t := b!"namespace " ++ n.text) (e := b!"\n") (k := bodyP w false r)
      (by rw [written_cons, written_qual, kwP_all]; simp) ih1
    rw [bodyEnd, Body.text]
    rw [blockP, List.cons_append] at this
    rw [bodyP]
    rw [List.nil_append] at this
    rw [this]
    simp only [List.append_assoc, ih2 w]
    simp [gapOf]
  | @linkage b n i r _ _ _ _ ih1 ih2 =>
    intro w
    have := written_block (l := [⟨gapOf b, b!"extern", b!" ", .Decl_Extern_Linkage, 0⟩, ⟨[], b!"\"" ++ n, b!"\"", .String, 2048⟩]) (g := []) (h := gapOf b) (t := b!"extern \"" ++ n ++ b!"\"")
      (e := b!"\n") (k := bodyP w false r) (by simp [Piece.all]) ih1
    rw [bodyEnd, Body.text]
    rw [blockP, List.nil_append] at this
    rw [bodyP]
    rw [show ∀ (x y : Piece) (l : List Piece), [x, y] ++ l = x :: y :: l from fun _ _ _ => rfl] at this
    rw [this]
    simp only [List.append_assoc, ih2 w]
    simp [gapOf]

/-! ## The lexer reads it -/

theorem word_key {k : RecordKind} : Lex.IsWord (keyOf k) := by
  cases k
  · exact word_class
  · exact word_struct
theorem tok_key {k : RecordKind} : strToTokType (keyOf k) = k.tok ∧ k.tok ∉ [.Invalid, .Decl_Extern_Linkage, .Preprocess_Macro_Stmt, .Preprocess_Macro_Expr] := by
  cases k <;> decide +kernel

theorem word_final : Lex.IsWord b!"final" := ⟨102, b!"inal", rfl, .inl (by decide), by decide⟩
theorem word_extern : Lex.IsWord b!"extern" := ⟨101, b!"xtern", rfl, .inl (by decide), by decide⟩
theorem word_access {a : Access} : Lex.IsWord a.word := by
  cases a with
  | pub => exact ⟨112, b!"ublic", rfl, .inl (by decide), by decide⟩
  | pro => exact ⟨112, b!"rotected", rfl, .inl (by decide), by decide⟩
  | pri => exact ⟨112, b!"rivate", rfl, .inl (by decide), by decide⟩
theorem tok_access {a : Access} : strToTokType a.word = accTok a ∧ accTok a ∉ [.Invalid, .Decl_Extern_Linkage, .Preprocess_Macro_Stmt, .Preprocess_Macro_Expr] := by
  cases a <;> decide +kernel

theorem recHead_run {ms : Macros} {b : Bool} {g r : Bytes} {h : RecHead} (hg : GapOk b g) (hh : h.Ok ms) : Run ms b (recHeadP g h) (recGap h ++ b!"\n" ++ r) false := by
  cases h with
  | named k n f =>
    rw [recHeadP]
    have e : ∀ x, Ends stops (written (qualP b!" " n ++ x) ++ (recGap (.named k n f) ++ b!"\n" ++ r)) := fun x => by
      rw [written_append, written_qual]; exact .cons (by decide)
    cases f with
    | false =>
      rw [if_neg (by simp)]
      refine .kw hg word_key tok_key.1 tok_key.2 (e _) ?_
      rw [List.append_nil]
      exact qual_run (.of one_space) hh (.cons (by decide))
    | true =>
      rw [if_pos rfl]
      refine .kw hg word_key tok_key.1 tok_key.2 (e _) (.append (qual_run (.of one_space) hh (.cons (by decide))) (.kw (.of one_space) word_final (by decide +kernel) (by decide) (.cons (by decide)) .nil))
  | unnamed => exact .kw hg word_struct (by decide +kernel) (by decide) (.cons (by decide)) .nil

theorem unionHead_run {ms : Macros} {b : Bool} {g r n : Bytes} (hg : GapOk b g) (hn : n ≠ [] → IsName ms n) : Run ms b (unionHeadP g n) (unionGap n ++ b!"\n" ++ r) false := by
  rw [unionHeadP, unionGap]
  by_cases h : n = []
  · rw [if_pos h, if_pos h]
    exact .kw hg word_union (by decide +kernel) (by decide) (.cons (by decide)) .nil
  · rw [if_neg h, if_neg h]
    exact .kw hg word_union (by decide +kernel) (by decide) (.cons (by decide)) (.id (.of one_space) (hn h) (.cons (by decide)) .nil)

theorem comment_text {x r : Bytes} (h : IsComment x) : CommentText x r := by
  cases h with
  | line h => exact .lineLf h
  | block h => exact .blockLf h

theorem comment_last {x : Bytes} (h : IsComment x) : x.getLast? = some 10 := by
  cases h with
  | line h => rw [List.getLast?_append]; rfl
  | block h => rw [List.getLast?_append]; rfl

theorem gapOf_ok {b : Bool} : GapOk (!b) (gapOf b) := by
  cases b with
  | false => exact .nil
  | true => exact .of newline_space

theorem fnGap_ok {b : Bool} {f : Fn} : GapOk (!b) (gapOf b ++ fnLead f) := by
  cases b with
  | false =>
    refine .space fun x hx => ?_
    rw [show gapOf false = [] from rfl, List.nil_append] at hx
    unfold fnLead at hx
    split at hx
    · cases hx
    · exact List.mem_singleton.mp hx
  | true =>
    refine .of fun x hx => ?_
    rcases List.mem_append.mp hx with hx | hx
    · exact newline_space x hx
    · unfold fnLead at hx
      split at hx
      · cases hx
      · exact one_space x hx

theorem endGap_ok {e : Bool} : GapOk (!e) (endGap true e) := by
  cases e with
  | false => exact .nil
  | true => exact .of newlines_space

theorem nl_run {ms : Macros} {r : Bytes} : Run ms true [nlP] r true :=
  ⟨⟨(by intro x h; cases h), (by intro _ x h; cases h), .newline rfl, trivial⟩, rfl⟩

theorem block_run {ms : Macros} {b : Bool} {l k : List Piece} {g e r : Bytes} {i : Body} {b' b2 : Bool} (hg : Spaces g) (hl : ∀ r, Run ms b l (g ++ b!"\n" ++ r) false)
    (hi : ∀ w r, (bodyEnd true i = true → Ends b!"\n" r) → Run ms false (bodyP w true i) r (!(bodyEnd true i))) (he : Lex.LineEnd e (written k ++ r)) (hb : lineStart false (b!"}" ++ e) = b')
    (hk : Run ms b' k r b2) : Run ms b (blockP l g i e k) r b2 := by
  subst hb
  refine .append ?_ (.pu (.of ?_) (f := []) (by decide) notNext_none (.append (hi true _ ?_) (.append (l := [closeP _ e]) (close_run endGap_ok he) hk)))
  · rw [written_cons, openP_all, List.append_assoc, List.append_assoc]; exact hl _
  · intro x hx
    rcases List.mem_append.mp hx with hx | hx
    · exact hg x hx
    · exact newline_space x hx
  · intro hh
    rw [hh]
    exact .cons (by decide)

theorem body_first {ms : Macros} {p : Place} {w : Bool} {x : Body} {r : Bytes} (h : Body.Ok ms p true x) (hr : bodyEnd true x = true → Ends b!"\n" r) : Ends b!"\n" (written (bodyP w true x) ++ r) := by
  have e : ∀ {x g : Bytes}, x = gapOf true ++ g → ∀ {y r : Bytes}, Ends b!"\n" (x ++ y ++ r) := by
    intro x g h y r
    rw [h]
    exact .cons (by decide)
  cases h with
  | nil => simp only [bodyP, Bool.not_true, Bool.and_false, Bool.false_eq_true, if_false]; exact hr rfl
  | comment => exact .cons (by decide)
  | label => exact .cons (by decide)
  | var _ hv => rw [bodyP, written_append]; exact e (written_var hv.ok)
  | member hv => rw [bodyP, written_append]; exact e (written_var hv.ok)
  | fn _ hf => rw [bodyP, written_append]; exact e (written_fn hf.ok)
  | alias _ ha => rw [bodyP, written_append]; exact e (written_alias ha)
  | forward => exact .cons (by decide)
  | enumFwd => exact .cons (by decide)
  | enum he => rw [bodyP, written_append]; exact e (written_enum he)
  | @record p b h => cases h <;> exact .cons (by decide)
  | union => exact .cons (by decide)
  | space => exact .cons (by decide)
  | linkage => exact .cons (by decide)

theorem place_readable {p : Place} : ∀ s ∈ placeSpecs p, s ≠ .External_Linkage → s ∈ readable ∧ s ≠ .Ref := by
  cases p <;> decide

theorem varSpecs_readable : ∀ s ∈ Parse.varSpecs, s ≠ .External_Linkage → s ∈ readable ∧ s ≠ .Ref := by decide
theorem fnSpecs_readable : ∀ s ∈ Parse.fnSpecs, s ≠ .External_Linkage → s ∈ readable ∧ s ≠ .Ref := by decide

theorem body_run {ms : Macros} {p : Place} {b : Bool} {x : Body} (h : Body.Ok ms p b x) : ∀ w r, (bodyEnd b x = true → Ends b!"\n" r) → Run ms (!b) (bodyP w b x) r (!(bodyEnd b x)) := by
  induction h with
  | @nil p b =>
    intro w r _
    cases w <;> cases b
    · exact .nil
    · exact .nil
    · exact nl_run
    · exact .nil
  | newline _ ih => intro w r hr; exact .append (l := [nlP]) nl_run (ih w r hr)
  | @comment p b x r hx _ ih =>
    intro w t hr
    refine .append (l := [commentP (gapOf b) x]) ⟨⟨gapOf_ok.1, gapOf_ok.2, .comment (comment_text hx), trivial⟩, ?_⟩ (ih w t hr)
    rw [written_cons, written_nil, List.append_nil, commentP_all, lineStart_append, lineStart_of (comment_last hx)]
    rfl
  | @label b a r hk ih =>
    intro w t hr
    exact .kw gapOf_ok word_access tok_access.1 tok_access.2 (.cons (by decide)) (.pu .nil (f := b!":") (by decide) ((body_first hk hr).not (by decide)) (ih w t hr))
  | var _ hv _ ih => intro w t hr; exact .append (var_run gapOf_ok hv.ok place_readable) (ih w t hr)
  | member hv _ ih => intro w t hr; exact .append (var_run gapOf_ok hv.ok varSpecs_readable) (ih w t hr)
  | fn _ hf _ ih => intro w t hr; exact .append (fn_run fnGap_ok hf.ok place_readable) (ih w t hr)
  | alias _ ha _ _ _ ih => intro w t hr; exact .append (alias_run gapOf_ok ha) (ih w t hr)
  | forward hn _ ih =>
    intro w t hr
    exact .kw gapOf_ok word_key tok_key.1 tok_key.2 (.cons (by decide)) (.id (.of one_space) hn (.cons (by decide)) (.append (l := [semiP]) .semi (ih w t hr)))
  | enumFwd hn _ ih =>
    intro w t hr
    exact .kw gapOf_ok word_enum (by decide +kernel) (by decide) (.cons (by decide)) (.id (.of one_space) hn (.cons (by decide)) (.append (l := [semiP]) .semi (ih w t hr)))
  | enum he _ _ ih => intro w t hr; exact .append (enum_run gapOf_ok he) (ih w t hr)
  | @record p b h i r hh _ _ ih1 ih2 =>
    intro w t hr
    rw [bodyP, ← blockP]
    refine block_run (b' := false) ?_ (fun r => recHead_run gapOf_ok hh) ih1 (Lex.LineEnd.none (n := 0) (r := written (semiP :: bodyP w false r) ++ t) (by intro x hx; cases hx; decide)) rfl
      (.append (l := [semiP]) .semi (ih2 w t hr))
    cases h with
    | named => intro x hx; cases hx
    | unnamed => exact one_space
  | @union p b n i r hh _ _ ih1 ih2 =>
    intro w t hr
    rw [bodyP, ← blockP]
    refine block_run (b' := false) ?_ (fun r => unionHead_run gapOf_ok hh) ih1 (Lex.LineEnd.none (n := 0) (r := written (semiP :: bodyP w false r) ++ t) (by intro x hx; cases hx; decide)) rfl
      (.append (l := [semiP]) .semi (ih2 w t hr))
    unfold unionGap
    split
    · exact one_space
    · intro x hx; cases hx
  | @space p b n i r _ hn _ _ ih1 ih2 =>
    intro w t hr
    have := block_run (ms := ms) (b := !b) (l := kwP (gapOf b) b!"namespace" .Decl_Namespace :: qualP b!" " n) (g := []) (e := b!"\n") (k := bodyP w false r) (i := i) (r := t) (b' := true)
      (by intro x hx; cases hx) (fun r => .kw gapOf_ok word_namespace (by decide +kernel) (by decide) (by rw [written_qual]; exact .cons (by decide))
        (qual_run (.of one_space) hn (.cons (by decide)))) ih1 lineEnd_lf rfl (ih2 w t hr)
    exact this
  | @linkage b n i r _ hn _ _ ih1 ih2 =>
    intro w t hr
    have := block_run (ms := ms) (b := !b) (l := [⟨gapOf b, b!"extern", b!" ", .Decl_Extern_Linkage, 0⟩, ⟨[], b!"\"" ++ n, b!"\"", .String, 2048⟩]) (g := []) (e := b!"\n") (k := bodyP w false r)
      (i := i) (r := t) (b' := true) (by intro x hx; cases hx) (fun r => ?_) ih1 lineEnd_lf rfl (ih2 w t hr)
    · exact this
    · refine ⟨⟨gapOf_ok.1, gapOf_ok.2, .token (.externLinkage word_extern (by show strToTokType b!"extern" = _; decide +kernel) (by intro x hx; cases hx; decide) one_space rfl), (by intro x hx; cases hx),
        (by intro _ x hx; cases hx), .token (.string hn), trivial⟩, ?_⟩
      rw [written_cons, written_cons, written_nil, List.append_nil, lineStart_append]
      have e : (Piece.all ⟨[], b!"\"" ++ n, b!"\"", .String, 2048⟩).getLast? = some 34 := by
        rw [show Piece.all ⟨[], b!"\"" ++ n, b!"\"", .String, 2048⟩ = b!"\"" ++ n ++ b!"\"" by simp [Piece.all]]
        exact List.getLast?_concat
      rw [lineStart_of e]
      decide

/-! ## Braces and calls -/

theorem recHead_tame {g : Bytes} {h : RecHead} : Tame (recHeadP g h) := by
  cases h with
  | named k n f =>
    rw [recHeadP]
    refine .cons (by show quiet k.tok; cases k <;> decide) (by show k.tok ≠ _; cases k <;> decide) (fun h => ?_) (qual_tame.append ?_ (.inl qual_soft))
    · have : k.tok = .Operator := h.1
      revert this
      cases k <;> decide
    · cases f with
      | false => exact .nil
      | true => exact .cons (by decide : quiet .Spec_Final) (by intro hh; cases hh) (by intro h; cases h.1) .nil
  | unnamed => exact .cons (by decide : quiet .Decl_Struct) (by intro hh; cases hh) (by intro h; cases h.1) .nil

theorem unionHead_tame {g n : Bytes} : Tame (unionHeadP g n) := by
  refine .cons (by decide : quiet .Decl_Union) (by intro hh; cases hh) (by intro h; cases h.1) ?_
  split
  · exact .nil
  · exact .cons (by decide : quiet .Identifier) (by intro hh; cases hh) (by intro h; cases h.1) .nil

theorem block_tame {l k : List Piece} {g e : Bytes} {i : Body} (hl : Tame l) (hi : Tame (bodyP true true i)) (hk : Tame k) : Tame (blockP l g i e k) :=
  hl.append (.braces rfl rfl hi hk) (.inr open_notId)

theorem semi_cons {l : List Piece} (h : Tame l) : Tame (semiP :: l) := .cons (by decide : quiet .Statement_End) (by intro hh; cases hh) (by intro h; cases h.1) h

theorem semi_soft {g : Bytes} : Soft [{ semiP with gap := g }] := by
  intro q hq
  cases hq
  exact ⟨(by intro hh; cases hh), (by intro h; cases h.1)⟩

theorem last_soft {l : List Piece} {q : Piece} (h : l.getLast? = some q) (ht : q.type = .Statement_End ∨ q.type = .BraceCurly_Close) : Soft l := by
  intro r hr
  rw [h] at hr
  cases hr
  rcases ht with ht | ht <;> exact ⟨(by rw [ht]; decide), (by rw [ht]; intro hh; cases hh.1)⟩

theorem var_last {g : Bytes} {v : Var} : (varP g v).getLast? = some semiP := by
  rw [varP, ← List.append_assoc]
  exact List.getLast?_concat

theorem ending_last {g : Bytes} {l : List (List Piece)} : ∃ q, (endingP g l).getLast? = some q ∧ q.over = semiP.over ∧ q.type = semiP.type := lead_last List.getLast?_concat

theorem getLast_append {α : Type} {l k : List α} {q : α} (h : k.getLast? = some q) : (l ++ k).getLast? = some q := by
  rw [List.getLast?_append, h]
  rfl

theorem alias_last {g : Bytes} {a : Alias} : ∃ q, (aliasP g a).getLast? = some q ∧ q.over = b!"\n" ∧ q.type = .Statement_End := by
  cases a with
  | named n t l =>
    obtain ⟨q, h1, h2, h3⟩ := ending_last (g := typeGap t) (l := l)
    refine ⟨q, ?_, h2, h3⟩
    rw [aliasP]
    exact getLast_append (l := [_, _, _]) (getLast_append h1)
  | space n => exact ⟨semiP, rfl, rfl, rfl⟩
  | typedef t n l =>
    obtain ⟨q, h1, h2, h3⟩ := ending_last (g := []) (l := l)
    refine ⟨q, ?_, h2, h3⟩
    rw [aliasP]
    exact getLast_append (l := [_]) (getLast_append (getLast_append (l := [_]) h1))

theorem fn_last {g : Bytes} {f : Fn} : ∃ q, (fnP g f).getLast? = some q ∧ (q.type = .Statement_End ∨ q.type = .BraceCurly_Close) := by
  have : ∃ q, (endP f.body).getLast? = some q ∧ (q.type = .Statement_End ∨ q.type = .BraceCurly_Close) := by
    cases f.body with
    | none => exact ⟨_, rfl, .inl rfl⟩
    | some k => exact ⟨_, getLast_append (l := [_]) List.getLast?_concat, .inr rfl⟩
  obtain ⟨q, h1, h2⟩ := this
  exact ⟨q, getLast_append (getLast_append (getLast_append h1)), h2⟩

theorem enum_last {g : Bytes} {e : Enum} : (enumP g e).getLast? = some semiP := by
  rw [enumP]
  exact getLast_append (getLast_append (l := [_]) (getLast_append rfl))

theorem body_tame {ms : Macros} {p : Place} {b : Bool} {x : Body} (h : Body.Ok ms p b x) : ∀ w, Tame (bodyP w b x) := by
  induction h with
  | @nil p b =>
    intro w
    rw [bodyP]
    split
    · exact .cons (by decide : quiet .NewLine) (by intro hh; cases hh) (by intro h; cases h.1) .nil
    · exact .nil
  | newline _ ih => intro w; exact .cons (by decide : quiet .NewLine) (by intro hh; cases hh) (by intro h; cases h.1) (ih w)
  | comment _ _ ih => intro w; exact .cons (by decide : quiet .Comment) (by intro hh; cases hh) (by intro h; cases h.1) (ih w)
  | @label b a r _ ih =>
    intro w
    refine .cons (by show quiet (accTok a); cases a <;> decide) (by show accTok a ≠ _; cases a <;> decide) (fun h => ?_)
      (.cons (by decide : quiet .Assign_Classifer) (by intro hh; cases hh) (by intro h; cases h.1) (ih w))
    have : accTok a = .Operator := h.1
    revert this
    cases a <;> decide
  | var _ hv _ ih => intro w; exact (var_tame hv.ok hv.calls hv.parens).append (ih w) (.inl (last_soft var_last (.inl rfl)))
  | member hv _ ih => intro w; exact (var_tame hv.ok hv.calls hv.parens).append (ih w) (.inl (last_soft var_last (.inl rfl)))
  | fn _ hf _ ih =>
    intro w
    obtain ⟨q, h1, h2⟩ := fn_last (f := _)
    exact (fn_tame hf.ok hf.ctor hf.calls.1 hf.calls.2).append (ih w) (.inl (last_soft h1 h2))
  | alias _ ha h1 h2 _ ih =>
    intro w
    obtain ⟨q, h3, -, h5⟩ := alias_last (a := _)
    exact (alias_tame ha h1 h2).append (ih w) (.inl (last_soft h3 (.inl h5)))
  | @forward p b k n r _ _ ih =>
    intro w
    refine .cons (by show quiet k.tok; cases k <;> decide) (by show k.tok ≠ _; cases k <;> decide) (fun h => ?_)
      (.cons (by decide : quiet .Identifier) (by intro hh; cases hh) (by intro h; cases h.1) (semi_cons (ih w)))
    have : k.tok = .Operator := h.1
    revert this
    cases k <;> decide
  | enumFwd _ _ ih =>
    intro w
    exact .cons (by decide : quiet .Decl_Enum) (by intro hh; cases hh) (by intro h; cases h.1) (.cons (by decide : quiet .Identifier) (by intro hh; cases hh) (by intro h; cases h.1) (semi_cons (ih w)))
  | enum he h2 _ ih => intro w; exact (enum_tame he h2).append (ih w) (.inl (last_soft enum_last (.inl rfl)))
  | record _ _ _ ih1 ih2 => intro w; exact block_tame recHead_tame (ih1 true) (semi_cons (ih2 w))
  | union _ _ _ ih1 ih2 => intro w; exact block_tame unionHead_tame (ih1 true) (semi_cons (ih2 w))
  | @space p b n i r _ _ _ _ ih1 ih2 =>
    intro w
    exact block_tame (l := _ :: _) (g := []) (.cons (by decide : quiet .Decl_Namespace) (by intro hh; cases hh) (by intro h; cases h.1) qual_tame) (ih1 true) (ih2 w)
  | @linkage b n i r _ _ _ _ ih1 ih2 =>
    intro w
    exact block_tame (l := [_, _]) (g := []) (.cons (by decide : quiet .Decl_Extern_Linkage) (by intro hh; cases hh) (by intro h; cases h.1)
      (.cons (by decide : quiet .String) (by intro hh; cases hh) (by intro h; cases h.1) .nil)) (ih1 true) (ih2 w)

end Verif.Round
