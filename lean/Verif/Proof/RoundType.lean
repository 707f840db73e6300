import Verif.Proof.Round
/-!
# C59: names and types
-/
namespace Verif.Round
open Verif.Lex (Tok Pos Macros Piece Reads CommentText Spaces NotNext Lexes toksAt)
open Verif.Parse (TokIs Spans UpTo IdTok Parts partToks QualToks NameToks TypeToks SpecToks specTok specFlags Tidied builtinTypes typeSuffixes typeText varSpecs fnSpecs
  fnSuffixes specWords)

/-! ## Putting pieces together -/

/-- The pieces are read, in front of `r`; `b` and `b'` say whether a line begins before and behind them. -/
def Run (ms : Macros) (b : Bool) (l : List Piece) (r : Bytes) (b' : Bool) : Prop := Sits ms b l r ∧ lineStart b (written l) = b'

theorem Run.nil {ms : Macros} {b : Bool} {r : Bytes} : Run ms b [] r b := ⟨trivial, rfl⟩

theorem Run.append {ms : Macros} {b b1 b2 : Bool} {l k : List Piece} {r : Bytes} (h : Run ms b l (written k ++ r) b1) (h2 : Run ms b1 k r b2) : Run ms b (l ++ k) r b2 := by
  refine ⟨sits_append.mpr ⟨h.1, ?_⟩, ?_⟩
  · rw [h.2]; exact h2.1
  · rw [written_append, lineStart_append, h.2]; exact h2.2

/-- White space that is read as such. -/
structure GapOk (b : Bool) (g : Bytes) : Prop where
  spaces : Spaces g
  line : b = true → NotNext (fun b => b == 13 || b == 10) g

theorem GapOk.nil {b : Bool} : GapOk b [] := ⟨(by intro x h; cases h), (by intro _ x h; cases h)⟩
theorem GapOk.of {g : Bytes} (h : Spaces g) : GapOk false g := ⟨h, (by intro h; cases h)⟩
theorem GapOk.space {b : Bool} {g : Bytes} (h : ∀ x ∈ g, x = 32) : GapOk b g :=
  ⟨fun x hx => by rw [h x hx]; decide, fun _ x hx => by rw [h x (List.mem_of_head? hx)]; decide⟩

theorem Run.cons {ms : Macros} {b b' : Bool} {q : Piece} {l : List Piece} {r : Bytes} (hg : GapOk b q.gap) (hr : Reads ms q.text q.over (written l ++ r) q.type q.flags)
    (ho : q.over = []) (h : Run ms false l r b') : Run ms b (q :: l) r b' := by
  have hf : lineStart b q.all = false := by
    have := Lex.reads_last hr ho
    have hx := Lex.reads_text hr
    rw [Piece.all, ho, List.append_nil]
    cases hl : q.text.getLast? with
    | none => exact absurd (List.getLast?_eq_none_iff.mp hl) hx
    | some y =>
      rw [lineStart_append, lineStart_of hl]
      rw [hl] at this
      exact beq_eq_false_iff_ne.mpr fun hh => this (by rw [hh])
  refine ⟨⟨hg.1, hg.2, .token hr, ?_⟩, ?_⟩
  · rw [hf]; exact h.1
  · rw [written_cons, lineStart_append, hf]; exact h.2

/-- The next byte is one of `s`. -/
def Ends (s r : Bytes) : Prop := ∃ b t, r = b :: t ∧ b ∈ s

theorem Ends.not {s r : Bytes} {P : UInt8 → Bool} (h : Ends s r) (hp : s.all (fun b => !P b) = true) : NotNext P r := by
  obtain ⟨b, t, rfl, hb⟩ := h
  intro x hx
  cases hx
  simpa using List.all_eq_true.mp hp b hb

theorem Ends.mono {s s' r : Bytes} (h : Ends s r) (hs : s.all (fun b => s'.contains b) = true) : Ends s' r := by
  obtain ⟨b, t, rfl, hb⟩ := h
  exact ⟨b, t, rfl, by simpa using List.all_eq_true.mp hs b hb⟩

theorem Ends.cons {s t : Bytes} {b : UInt8} (h : s.contains b = true) : Ends s (b :: t) := ⟨b, t, rfl, by simpa using h⟩

theorem Ends.gap {s g r : Bytes} (hs : s.contains 32 = true) (hg : ∀ x ∈ g, x = 32) (h : Ends s r) : Ends s (g ++ r) := by
  cases g with
  | nil => exact h
  | cons a g => exact ⟨a, g ++ r, rfl, by rw [hg a List.mem_cons_self]; simpa using hs⟩

/-! ## Words -/

/-- What may stand behind a word. -/
def stops : Bytes := b!" \n;,:(){}[]*&="

theorem Ends.word {r : Bytes} (h : Ends stops r) : NotNext Lex.isWord r := h.not (by decide)

/-- An identifier. -/
def idP (g x : Bytes) : Piece := ⟨g, x, [], .Identifier, 0⟩

/-- A keyword. -/
def kwP (g x : Bytes) (ty : TokType) : Piece := ⟨g, x, [], ty, Lex.keywordFlags ty⟩

/-- Punctuation. -/
def puP (g x : Bytes) (ty : TokType) (fl : Nat) : Piece := ⟨g, x, [], ty, fl⟩

@[simp] theorem idP_all {g x : Bytes} : (idP g x).all = g ++ x := by simp [idP, Piece.all]
@[simp] theorem kwP_all {g x : Bytes} {ty : TokType} : (kwP g x ty).all = g ++ x := by simp [kwP, Piece.all]
@[simp] theorem puP_all {g x : Bytes} {ty : TokType} {fl : Nat} : (puP g x ty fl).all = g ++ x := by simp [puP, Piece.all]

theorem IsName.reads {ms : Macros} {x r : Bytes} (h : IsName ms x) (hr : Ends stops r) : Reads ms x [] r .Identifier 0 := .word h.word h.plain h.free hr.word

theorem Run.id {ms : Macros} {b b' : Bool} {g x : Bytes} {l : List Piece} {r : Bytes} (hg : GapOk b g) (hx : IsName ms x) (hr : Ends stops (written l ++ r))
    (h : Run ms false l r b') : Run ms b (idP g x :: l) r b' := .cons hg (hx.reads hr) rfl h

theorem Run.kw {ms : Macros} {b b' : Bool} {g x : Bytes} {ty : TokType} {l : List Piece} {r : Bytes} (hg : GapOk b g) (hw : Lex.IsWord x) (hx : strToTokType x = ty)
    (ht : ty ∉ [.Invalid, .Decl_Extern_Linkage, .Preprocess_Macro_Stmt, .Preprocess_Macro_Expr]) (hr : Ends stops (written l ++ r)) (h : Run ms false l r b') :
    Run ms b (kwP g x ty :: l) r b' := by
  simp only [List.mem_cons, List.not_mem_nil, or_false, not_or] at ht
  exact .cons hg (.keyword hw hx ht.1 ht.2.1 ht.2.2.1 ht.2.2.2 hr.word) rfl h

theorem Run.pu {ms : Macros} {b b' : Bool} {g x f : Bytes} {ty : TokType} {fl : Nat} {l : List Piece} {r : Bytes} (hg : GapOk b g) (hx : (x, f, ty, fl) ∈ Lex.punctuation)
    (hr : NotNext (fun b => b ∈ f) (written l ++ r)) (h : Run ms false l r b') : Run ms b (puP g x ty fl :: l) r b' := .cons hg (.punct hx hr) rfl h

theorem notNext_none {r : Bytes} : NotNext (fun b => b ∈ ([] : Bytes)) r := fun b _ => by simp

/-- `;` at the end of its line. -/
def semiP : Piece := ⟨[], b!";", b!"\n", .Statement_End, 512⟩

@[simp] theorem semiP_all : semiP.all = b!";\n" := rfl

theorem lineEnd_lf {r : Bytes} : Lex.LineEnd b!"\n" r := Lex.LineEnd.lf (n := 0)

theorem Run.semi {ms : Macros} {b : Bool} {r : Bytes} : Run ms b [semiP] r true :=
  ⟨⟨(by intro x h; cases h), (by intro _ x h; cases h), .token (.semicolon lineEnd_lf), trivial⟩, rfl⟩

/-! ## Qualified names -/

def scopeP (x : Bytes) : List Piece := [puP [] b!"::" .Access_StaticSymbol 0, idP [] x]

def qualP (g : Bytes) (q : Qual) : List Piece := idP g q.first :: q.more.flatMap scopeP

theorem written_scopes {l : List Bytes} : written (l.flatMap scopeP) = l.flatMap fun x => b!"::" ++ x := by
  induction l with
  | nil => rfl
  | cons x l ih => simp [scopeP, ih]

theorem written_qual {g : Bytes} {q : Qual} : written (qualP g q) = g ++ q.text := by
  simp [qualP, Qual.text, written_scopes]

theorem scopes_run {ms : Macros} {r : Bytes} (hr : Ends stops r) {l : List Bytes} : (∀ x ∈ l, IsName ms x) → Run ms false (l.flatMap scopeP) r false := by
  induction l with
  | nil => exact fun _ => .nil
  | cons x l ih =>
    intro h
    refine .pu .nil (f := []) (by decide) notNext_none (.id .nil (h x List.mem_cons_self) ?_ (ih fun y hy => h y (List.mem_cons_of_mem _ hy)))
    cases l with
    | nil => exact hr
    | cons y l => exact .cons (by decide)

theorem qual_run {ms : Macros} {b : Bool} {g r : Bytes} {q : Qual} (hg : GapOk b g) (hq : q.Ok ms) (hr : Ends stops r) : Run ms b (qualP g q) r false := by
  refine .id hg (hq _ List.mem_cons_self) ?_ (scopes_run hr fun y hy => hq y (List.mem_cons_of_mem _ hy))
  cases hm : q.more with
  | nil => exact hr
  | cons y l => exact .cons (by decide)

theorem isWord_ne {x : Bytes} (h : Lex.IsWord x) : x ≠ [] := by
  obtain ⟨a, r, rfl, -⟩ := h
  simp

theorem On.idTok {c : Bytes} {p : Pos} {g x : Bytes} {l : List Piece} (h : On c p (idP g x :: l)) (hx : Lex.IsWord x) : IdTok c (tokOf p (idP g x)) x :=
  ⟨h.tokIs, isWord_ne hx⟩

theorem scopes_toks {c : Bytes} {l : List Bytes} : ∀ {p : Pos}, On c p (l.flatMap scopeP) → (∀ x ∈ l, Lex.IsWord x) →
    ∃ m, Parts c m ∧ toksAt p (l.flatMap scopeP) = m.flatMap partToks := by
  induction l with
  | nil => intro p _ _; exact ⟨[], (by intro p hp; cases hp), rfl⟩
  | cons x l ih =>
    intro p h hx
    rw [List.flatMap_cons, scopeP] at h
    obtain ⟨m, h1, h2⟩ := ih h.tail.tail fun y hy => hx y (List.mem_cons_of_mem _ hy)
    refine ⟨(tokOf p (puP [] b!"::" .Access_StaticSymbol 0), tokOf (p.after (puP [] b!"::" .Access_StaticSymbol 0).all) (idP [] x)) :: m, ?_, ?_⟩
    · intro a ha
      rcases List.mem_cons.mp ha with rfl | ha
      · exact ⟨rfl, x, h.tail.idTok (hx x List.mem_cons_self)⟩
      · exact h1 a ha
    · rw [List.flatMap_cons, scopeP, List.flatMap_cons, ← h2]
      rfl

/-- No piece of a name swallows anything. -/
theorem qual_last {g : Bytes} {q : Qual} : ∃ r, (qualP g q).getLast? = some r ∧ r.over = [] := by
  have key : ∀ r ∈ qualP g q, r.over = [] := by
    intro r hr
    rcases List.mem_cons.mp hr with rfl | hr
    · rfl
    · obtain ⟨x, -, hr⟩ := List.mem_flatMap.mp hr
      simp only [scopeP, List.mem_cons, List.not_mem_nil, or_false] at hr
      rcases hr with rfl | rfl <;> rfl
  cases hl : (qualP g q).getLast? with
  | none => rw [List.getLast?_eq_none_iff] at hl; cases hl
  | some r => exact ⟨r, rfl, key r (List.mem_of_getLast? hl)⟩

theorem On.qual {c : Bytes} {p : Pos} {g : Bytes} {q : Qual} {ms : Macros} (h : On c p (qualP g q)) (hq : q.Ok ms) : QualToks c q.text (toksAt p (qualP g q)) := by
  have hw : ∀ x ∈ q.first :: q.more, Lex.IsWord x := fun x hx => (hq x hx).word
  obtain ⟨m, h1, h2⟩ := scopes_toks h.tail fun y hy => hw y (List.mem_cons_of_mem _ hy)
  obtain ⟨r, h3, h4⟩ := qual_last (g := g) (q := q)
  have hs := h.spans (q := idP g q.first) rfl h3 (by rw [h4, written_qual, List.append_nil]; rfl)
  rw [qualP, toksAt_cons, h2] at hs ⊢
  refine .mk (On.idTok h (hw _ List.mem_cons_self)) h1 hs ?_
  rw [Qual.text]
  simp [isWord_ne (hw _ List.mem_cons_self)]

/-! ## Specifiers -/

/-- The specifiers that are read as such. -/
abbrev readable : List Specifier :=
  [.Consteval, .Constexpr, .Constinit, .Explicit, .ForceInline, .Global, .Inline, .Internal_Linkage, .Local_Persist, .Mutable, .NeverInline, .Ptr, .Ref, .Restrict, .RValue,
   .Static, .Thread_Local, .Virtual, .Const, .Final, .Override, .Volatile]

/-- The specifiers without a space in front. -/
def isMark (s : Specifier) : Prop := s = .Ptr ∨ s = .Ref ∨ s = .RValue

instance (s : Specifier) : Decidable (isMark s) := by unfold isMark; infer_instance

def specP (g : Bytes) (s : Specifier) : Piece := ⟨g, specToStr s, [], specTok s, specFlags s⟩

@[simp] theorem specP_all {g : Bytes} {s : Specifier} : (specP g s).all = g ++ specToStr s := by simp [specP, Piece.all]

def wordly : Bytes → Bool
  | [] => false
  | a :: r => (charIsAlpha a || a == 95) && r.all fun b => charIsAlphanumeric b || b == 95

theorem spec_reads {ms : Macros} {s : Specifier} {r : Bytes} (hs : s ∈ readable) (hr : Ends b!" \n;*&" r) (hn : s = .Ref → Ends b!" \n;*" r) :
    Reads ms (specToStr s) [] r (specTok s) (specFlags s) := by
  by_cases h1 : s = .Ptr
  · subst h1; exact .punct (f := b!"=") (by decide) (hr.not (by decide))
  by_cases h2 : s = .Ref
  · subst h2; exact .punct (f := b!"&") (by decide) ((hn rfl).not (by decide))
  by_cases h3 : s = .RValue
  · subst h3; exact .punct (f := b!"") (by decide) notNext_none
  have key : ∀ s ∈ readable, s ≠ .Ptr → s ≠ .Ref → s ≠ .RValue → strToTokType (specToStr s) = specTok s ∧ Lex.keywordFlags (specTok s) = specFlags s ∧
      specTok s ∉ [.Invalid, .Decl_Extern_Linkage, .Preprocess_Macro_Stmt, .Preprocess_Macro_Expr] := by decide +kernel
  have hw : ∀ s ∈ readable, s ≠ .Ptr → s ≠ .Ref → s ≠ .RValue → Lex.IsWord (specToStr s) := by
    intro s hs h1 h2 h3
    have key : ∀ s ∈ readable, s ≠ .Ptr → s ≠ .Ref → s ≠ .RValue → wordly (specToStr s) = true := by decide +kernel
    have this := key s hs h1 h2 h3
    unfold wordly at this
    cases hx : specToStr s with
    | nil => rw [hx] at this; cases this
    | cons a r =>
      rw [hx] at this
      simp only [Bool.and_eq_true, Bool.or_eq_true, beq_iff_eq, List.all_eq_true] at this
      exact ⟨a, r, rfl, this.1, this.2⟩
  obtain ⟨k1, k2, k3⟩ := key s hs h1 h2 h3
  simp only [List.mem_cons, List.not_mem_nil, or_false, not_or] at k3
  rw [← k2]
  exact .keyword (hw s hs h1 h2 h3) k1 k3.1 k3.2.1 k3.2.2.1 k3.2.2.2 (hr.not (by decide))

/-- Specifiers, with the gap `f s` in front of each. -/
def specsP (f : Specifier → Bytes) (l : List Specifier) : List Piece := l.map fun s => specP (f s) s

theorem specs_toks {c : Bytes} {f : Specifier → Bytes} {l : List Specifier} : ∀ {p : Pos}, On c p (specsP f l) → SpecToks c l (toksAt p (specsP f l)) := by
  induction l with
  | nil => intro p _; exact .nil
  | cons s l ih => intro p h; exact .cons h.tokIs (ih h.tail)

/-- The gap of a specifier behind another one. -/
def markGap (s : Specifier) : Bytes := if isMark s then [] else b!" "

theorem markGap_spaces (s : Specifier) : ∀ x ∈ markGap s, x = 32 := by
  unfold markGap
  split <;> simp

theorem mark_ends {s : Specifier} {r : Bytes} (hs : s ∈ readable) : Ends b!" *&" (markGap s ++ specToStr s ++ r) := by
  unfold markGap
  split
  · next h => rcases h with rfl | rfl | rfl <;> exact .cons (by decide)
  · exact .cons (by decide)

theorem mark_star {s : Specifier} {r : Bytes} (hs : s ∈ readable) (h : s ≠ .Ref ∧ s ≠ .RValue) : Ends b!" *" (markGap s ++ specToStr s ++ r) := by
  unfold markGap
  split
  · next hm =>
    rcases hm with rfl | rfl | rfl
    · exact .cons (by decide)
    · exact absurd rfl h.1
    · exact absurd rfl h.2
  · exact .cons (by decide)

/-- Specifiers behind one another. -/
theorem marks_run {ms : Macros} {r : Bytes} (hr : Ends b!" " r) {l : List Specifier} : ∀ {s : Specifier} {g : Bytes} {b : Bool}, GapOk b g → (∀ x ∈ s :: l, x ∈ readable) →
    (∀ x, [.Ref, x] <:+: s :: l → x ≠ .Ref ∧ x ≠ .RValue) → Run ms b (specP g s :: specsP markGap l) r false := by
  induction l with
  | nil =>
    intro s g b hg hs _
    exact .cons hg (spec_reads (hs s List.mem_cons_self) (hr.mono (by decide)) fun _ => hr.mono (by decide)) rfl .nil
  | cons t l ih =>
    intro s g b hg hs hf
    have ht := hs t (by simp)
    have hw : written (specsP markGap (t :: l)) ++ r = markGap t ++ specToStr t ++ (written (specsP markGap l) ++ r) := by simp [specsP]
    refine .cons hg ?_ rfl (ih (.of fun x hx => by rw [markGap_spaces t x hx]; decide) (fun x hx => hs x (List.mem_cons_of_mem _ hx)) fun x hx => hf x (hx.trans (List.suffix_cons _ _).isInfix))
    rw [hw]
    refine spec_reads (hs s List.mem_cons_self) ((mark_ends ht).mono (by decide)) ?_
    rintro rfl
    exact (mark_star ht (hf t ⟨[], l, rfl⟩)).mono (by decide)

theorem written_specs {f : Specifier → Bytes} {l : List Specifier} : written (specsP f l) = l.flatMap fun s => f s ++ specToStr s := by
  induction l with
  | nil => rfl
  | cons s l ih => simp [specsP] at ih ⊢; rw [ih]

/-- `Ser.specsText`, in pieces. -/
theorem written_marks {g : Bytes} {s : Specifier} {l : List Specifier} : written (specP g s :: specsP markGap l) ++ b!" " = g ++ Ser.specsText (s :: l) := by
  rw [written_cons, written_specs, Ser.specsText, specP_all]
  simp only [markGap, isMark, List.append_assoc]

/-! ## Types -/

def keysP (l : List Bytes) : List Piece := l.map fun x => kwP b!" " x (strToTokType x)

def nameP (g : Bytes) : TypeName → List Piece
  | .name q => qualP g q
  | .native f l => kwP g f (strToTokType f) :: keysP l

/-- The specifiers behind the name of a type. -/
def suffixP : List Specifier → List Piece
  | [] => []
  | s :: l => specP b!" " s :: specsP markGap l

def typeP (g : Bytes) (t : Ty) : List Piece := nameP g t.name ++ suffixP t.specs

/-- The space behind the specifiers of a type. -/
def typeGap (t : Ty) : Bytes := if t.specs = [] then [] else b!" "

theorem typeGap_spaces (t : Ty) : ∀ x ∈ typeGap t, x = 32 := by
  unfold typeGap
  split <;> simp

theorem written_keys {l : List Bytes} : written (keysP l) = l.flatMap fun x => b!" " ++ x := by
  induction l with
  | nil => rfl
  | cons s l ih => simp [keysP] at ih ⊢; rw [ih]

theorem written_name {g : Bytes} {n : TypeName} : written (nameP g n) = g ++ n.text := by
  cases n with
  | name q => exact written_qual
  | native f l => simp [nameP, TypeName.text, written_keys]

theorem written_type {g : Bytes} {t : Ty} : written (typeP g t) ++ typeGap t = g ++ t.text := by
  obtain ⟨n, l⟩ := t
  cases l with
  | nil => simp [typeP, suffixP, typeGap, Ty.text, typeText, written_name]
  | cons s l =>
    rw [typeP, suffixP, written_append, List.append_assoc, typeGap, if_neg (by simp), written_marks, written_name, Ty.text, typeText, if_neg (by simp)]
    simp only [List.append_assoc]

theorem builtin_key {ty : TokType} (h : ty ∈ builtinTypes) : ty ∉ [TokType.Invalid, .Decl_Extern_Linkage, .Preprocess_Macro_Stmt, .Preprocess_Macro_Expr] ∧ Lex.keywordFlags ty = 0 := by
  revert h
  cases ty <;> decide

theorem keys_run {ms : Macros} {r : Bytes} (hr : Ends stops r) {l : List Bytes} (h : ∀ x ∈ l, Lex.IsWord x ∧ strToTokType x ∈ builtinTypes) : Run ms false (keysP l) r false := by
  induction l with
  | nil => exact .nil
  | cons x l ih =>
    have hx := h x List.mem_cons_self
    refine .kw (.of (by intro x hx; cases hx with | head => decide | tail _ h => cases h)) hx.1 rfl (builtin_key hx.2).1 ?_ (ih fun y hy => h y (List.mem_cons_of_mem _ hy))
    cases l with
    | nil => exact hr
    | cons y l => exact .cons (by decide)

theorem name_run {ms : Macros} {b : Bool} {g r : Bytes} {n : TypeName} (hg : GapOk b g) (hn : n.Ok ms) (hr : Ends stops r) : Run ms b (nameP g n) r false := by
  cases n with
  | name q => exact qual_run hg hn hr
  | native f l =>
    have hf := hn f List.mem_cons_self
    refine .kw hg hf.1 rfl (builtin_key hf.2).1 ?_ (keys_run hr fun y hy => hn y (List.mem_cons_of_mem _ hy))
    cases l with
    | nil => exact hr
    | cons y l => exact .cons (by decide)

theorem suffix_readable : ∀ s ∈ typeSuffixes, s ∈ readable := by decide

/-- A type: what follows begins with a space, unless it has no specifiers. -/
theorem type_run {ms : Macros} {b : Bool} {g r : Bytes} {t : Ty} (hg : GapOk b g) (ht : t.Ok ms) (hr : Ends stops r) (hs : t.specs ≠ [] → Ends b!" " r) :
    Run ms b (typeP g t) r false := by
  obtain ⟨n, l⟩ := t
  cases l with
  | nil => rw [typeP, suffixP, List.append_nil]; exact name_run hg ht.name hr
  | cons s l =>
    refine .append (name_run hg ht.name ?_) (marks_run (hs (by simp)) (.of (by intro x hx; cases hx with | head => decide | tail _ h => cases h))
      (fun x hx => suffix_readable x (ht.specs x hx)) ht.refs)
    exact .cons (by decide)

/-! ### Its tokens -/

theorem isWord_letters {x : Bytes} (h : Lex.IsWord x) : ∀ b ∈ x, Strip.Letter b := by
  obtain ⟨a, r, rfl, h1, h2⟩ := h
  have key : ∀ b : UInt8, charIsAlphanumeric b = true ∨ b = 95 → Strip.Letter b := by
    intro b hb
    refine ⟨fun hbl => ?_, ?_, ?_, ?_, ?_⟩
    · unfold Strip.Blank charIsSpace at hbl
      simp only [Bool.or_eq_true, beq_iff_eq] at hbl
      rcases hb with hb | rfl
      · rcases hbl with ((((rfl | rfl) | rfl) | rfl) | rfl) | rfl <;> exact absurd hb (by decide)
      · revert hbl; decide
    all_goals
      rintro rfl
      rcases hb with hb | hb
      · exact absurd hb (by decide)
      · exact absurd hb (by decide)
  intro b hb
  rcases List.mem_cons.mp hb with rfl | hb
  · refine key b (h1.imp (fun h => ?_) id)
    unfold charIsAlphanumeric
    rw [h]; rfl
  · exact key b (h2 b hb)

theorem letters_word {w : Bytes} (h : ∀ b ∈ w, Strip.Letter b) (h0 : w ≠ []) : Strip.Word w := by
  induction w with
  | nil => exact absurd rfl h0
  | cons b w ih =>
    cases w with
    | nil => exact .one (.letter (h b (List.mem_singleton.mpr rfl)))
    | cons d w => exact .cons (a := [b]) (.letter (h b List.mem_cons_self)) (ih (fun x hx => h x (List.mem_cons_of_mem _ hx)) (by simp))

theorem qual_letters {q : Qual} {ms : Macros} (hq : q.Ok ms) : ∀ b ∈ q.text, Strip.Letter b := by
  intro b hb
  rw [Qual.text] at hb
  rcases List.mem_append.mp hb with hb | hb
  · exact isWord_letters (hq _ List.mem_cons_self).word b hb
  · obtain ⟨x, hx, hb⟩ := List.mem_flatMap.mp hb
    rcases List.mem_append.mp hb with hb | hb
    · simp only [List.mem_cons, List.not_mem_nil, or_false, or_self] at hb
      subst hb
      decide
    · exact isWord_letters (hq _ (List.mem_cons_of_mem _ hx)).word b hb

theorem qual_ne {q : Qual} {ms : Macros} (hq : q.Ok ms) : q.text ≠ [] := by
  rw [Qual.text]
  simp [isWord_ne (hq _ List.mem_cons_self).word]

theorem name_tidied {n : TypeName} {ms : Macros} (h : n.Ok ms) : Tidied n.text n.text := by
  cases n with
  | name q => exact ⟨q.text, [], letters_word (qual_letters h) (qual_ne h), by simp, by simp [Strip.spread, TypeName.text], by simp [Strip.joined, TypeName.text]⟩
  | native f l =>
    have hw : ∀ x ∈ f :: l, Strip.Word x := fun x hx => letters_word (isWord_letters (h x hx).1) (isWord_ne (h x hx).1)
    refine ⟨f, l.map fun x => (b!" ", x), hw f List.mem_cons_self, ?_, ?_, ?_⟩
    · intro g hg
      obtain ⟨x, hx, rfl⟩ := List.mem_map.mp hg
      exact ⟨.space, hw x (List.mem_cons_of_mem _ hx)⟩
    · rw [TypeName.text]
      congr 1
      clear h hw
      induction l with
      | nil => rfl
      | cons x l ih => rw [List.flatMap_cons, ih]; simp [Strip.spread]
    · rw [TypeName.text]
      congr 1
      clear h hw
      induction l with
      | nil => rfl
      | cons x l ih => rw [List.flatMap_cons, ih]; simp [Strip.joined]

theorem On.name {c : Bytes} {p : Pos} {g : Bytes} {n : TypeName} {ms : Macros} (h : On c p (nameP g n)) (hn : n.Ok ms) : NameToks c n.text (toksAt p (nameP g n)) := by
  cases n with
  | name q => exact .ident (On.qual h hn)
  | native f l =>
    obtain ⟨r, h3, h4⟩ : ∃ r, (nameP g (.native f l)).getLast? = some r ∧ r.over = [] := by
      cases hl : (nameP g (.native f l)).getLast? with
      | none => rw [List.getLast?_eq_none_iff] at hl; cases hl
      | some r =>
        refine ⟨r, rfl, ?_⟩
        rcases List.mem_cons.mp (List.mem_of_getLast? hl) with rfl | hr
        · rfl
        · obtain ⟨x, -, rfl⟩ := List.mem_map.mp hr; rfl
    have hs := h.spans (q := kwP g f (strToTokType f)) rfl h3 (by rw [h4, written_name, List.append_nil]; rfl)
    rw [nameP, toksAt_cons] at hs ⊢
    refine .native ?_ ((builtin_key (hn f List.mem_cons_self).2).2) hs ?_
    · intro u hu
      rw [← toksAt_cons] at hu
      obtain ⟨q, hq, ht⟩ := mem_toksAt hu
      rw [ht]
      rcases List.mem_cons.mp hq with rfl | hq
      · exact (hn f List.mem_cons_self).2
      · obtain ⟨x, hx, rfl⟩ := List.mem_map.mp hq
        exact (hn x (List.mem_cons_of_mem _ hx)).2
    · rw [TypeName.text]
      simp [isWord_ne (hn f List.mem_cons_self).1]

theorem On.suffix {c : Bytes} {p : Pos} {l : List Specifier} (h : On c p (suffixP l)) : SpecToks c l (toksAt p (suffixP l)) := by
  cases l with
  | nil => exact .nil
  | cons s l => exact .cons h.tokIs (specs_toks h.tail)

theorem On.type {c : Bytes} {p : Pos} {g : Bytes} {t : Ty} {ms : Macros} (h : On c p (typeP g t)) (ht : t.Ok ms) : TypeToks c t.specs t.name.text (toksAt p (typeP g t)) := by
  have := TypeToks.mk (pre := []) (ps := []) .nil (by simp) (On.name h.left ht.name) (name_tidied ht.name) (On.suffix h.right) ht.specs (by simpa using ht.few)
  rw [typeP, toksAt_append]
  simpa using this

end Verif.Round
