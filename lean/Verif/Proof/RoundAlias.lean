import Verif.Proof.RoundFn
/-!
# C59: names for types, and enums
-/
namespace Verif.Round
open Verif.Lex (Tok Pos Macros Piece Reads CommentText Spaces NotNext Lexes toksAt)
open Verif.Parse (TokIs Spans UpTo IdTok QualToks TypeToks SpecToks Code Balanced depth after BoundToks ArrayToks AliasToks EnumeratorToks EnumToks EnumHead EnumDecl boundsText)

/-! ## Bounds behind a gap -/

theorem written_lead' {g : Bytes} {k : List Piece} (h0 : k ≠ []) (h : ∀ q, k.head? = some q → q.gap = []) : written (lead g k) = g ++ written k := written_lead h0 h

theorem bounds_first {l : List (List Piece)} {q : Piece} (h : (boundsP l ++ [semiP]).head? = some q) : q.gap = [] ∧ q.type ≠ .NewLine := by
  cases l with
  | nil => cases h; exact ⟨rfl, (by intro hh; cases hh)⟩
  | cons k l => cases h; exact ⟨rfl, (by intro hh; cases hh)⟩

/-- Bounds and the semicolon, behind the gap `g`. -/
def endingP (g : Bytes) (l : List (List Piece)) : List Piece := lead g (boundsP l ++ [semiP])

theorem written_ending {ms : Macros} {g : Bytes} {l : List (List Piece)} (h : ∀ k ∈ l, IsBound ms k) : written (endingP g l) = g ++ (boundsText (l.map written) ++ b!";\n") := by
  rw [endingP, written_lead (by simp) fun q hq => (bounds_first hq).1, written_append, written_bounds h]
  simp

theorem ending_run {ms : Macros} {g r : Bytes} {l : List (List Piece)} (hg : Spaces g) (h : ∀ k ∈ l, IsBound ms k) : Run ms false (endingP g l) r true := by
  have h1 : Run ms false (boundsP l ++ [semiP]) r true := .append (bounds_run h) .semi
  exact ⟨lead_sits (.of hg) (fun q hq => (bounds_first hq).2) h1.1, by rw [endingP, lead_line (by simp) h1.1]; exact h1.2⟩

theorem ending_ends {t : Ty} {l : List (List Piece)} {r : Bytes} : Ends stops (written (endingP (typeGap t) l) ++ r) ∧ (t.specs ≠ [] → Ends b!" " (written (endingP (typeGap t) l) ++ r)) := by
  rw [endingP, written_lead (by simp) fun q hq => (bounds_first hq).1, List.append_assoc]
  refine ⟨Ends.gap (by decide) (typeGap_spaces t) ?_, fun hs => ?_⟩
  · cases l <;> exact .cons (by decide)
  · rw [typeGap, if_neg hs]; exact .cons (by decide)

theorem On.ending {c : Bytes} {ms : Macros} {g : Bytes} {l : List (List Piece)} {p : Pos} (h : ∀ k ∈ l, IsBound ms k) (ho : On c p (endingP g l)) :
    ∃ bs u, toksAt p (endingP g l) = bs ++ [u] ∧ BoundToks c (l.map written) bs ∧ TokIs c u .Statement_End 512 b!";" := by
  cases l with
  | nil => exact ⟨[], _, rfl, .nil, ho.tokIs⟩
  | cons k l =>
    have hk := h k List.mem_cons_self
    have e : endingP g (k :: l) = (puP g b!"[" .BraceSquare_Open 0 :: (lead b!" " k ++ [puP b!" " b!"]" .BraceSquare_Close 0])) ++ (boundsP l ++ [semiP]) := by
      simp [endingP, boundsP, boundP, lead, puP]
    rw [e] at ho ⊢
    refine ⟨_, _, ?_, .cons ho.left.tokIs (fun t ht => ?_) (hk.1.spans hk.2.1 ho.left.tail.left) hk.1.written_ne ho.left.tail.right.tokIs
      (ho.right.left.bounds fun x hx => h x (List.mem_cons_of_mem _ hx)), ho.right.right.tokIs⟩
    · rw [toksAt_append, toksAt_cons, toksAt_append, toksAt_append, toksAt_cons, toksAt_nil, toksAt_cons, toksAt_nil]
      simp
    · obtain ⟨q, h1, h2⟩ := mem_lead ht
      exact ⟨hk.1.codes t ht, by rw [h2]; exact hk.2.2 q h1⟩

/-! ## Names for types -/

def aliasP (g : Bytes) : Alias → List Piece
  | .named n t l => kwP g b!"using" .Decl_Using :: idP b!" " n :: puP b!" " b!"=" .Operator 3 :: (typeP b!" " t ++ endingP (typeGap t) l)
  | .space n => [kwP g b!"using" .Decl_Using, kwP b!" " b!"namespace" .Decl_Namespace, idP b!" " n, semiP]
  | .typedef t n l => kwP g b!"typedef" .Decl_Typedef :: (typeP b!" " t ++ idP (typeGap t ++ b!" ") n :: endingP [] l)

theorem written_alias {ms : Macros} {g : Bytes} {a : Alias} (h : a.Ok ms) : written (aliasP g a) = g ++ a.text := by
  cases h with
  | @named n t l h1 h2 h3 =>
    rw [aliasP, written_cons, written_cons, written_cons, written_append, written_ending h3, ← List.append_assoc (written (typeP _ _)), written_type, Alias.text]
    simp
  | space h1 => simp [aliasP, Alias.text]
  | @typedef t n l h1 h2 h3 =>
    rw [aliasP, written_cons, written_append, written_cons, written_ending h3, idP_all, List.append_assoc (typeGap t), List.append_assoc (typeGap t), ← List.append_assoc (written (typeP _ _)),
      written_type, Alias.text]
    simp

theorem word_using : Lex.IsWord b!"using" := ⟨117, b!"sing", rfl, .inl (by decide), by decide⟩
theorem word_namespace : Lex.IsWord b!"namespace" := ⟨110, b!"amespace", rfl, .inl (by decide), by decide⟩
theorem word_typedef : Lex.IsWord b!"typedef" := ⟨116, b!"ypedef", rfl, .inl (by decide), by decide⟩
theorem word_enum : Lex.IsWord b!"enum" := ⟨101, b!"num", rfl, .inl (by decide), by decide⟩
theorem word_class : Lex.IsWord b!"class" := ⟨99, b!"lass", rfl, .inl (by decide), by decide⟩
theorem word_struct : Lex.IsWord b!"struct" := ⟨115, b!"truct", rfl, .inl (by decide), by decide⟩
theorem word_union : Lex.IsWord b!"union" := ⟨117, b!"nion", rfl, .inl (by decide), by decide⟩

theorem type_ends {t : Ty} {r : Bytes} : Ends b!" " (written (typeP b!" " t) ++ r) := by
  cases htn : t.name with
  | name q => rw [typeP, htn]; exact .cons (by decide)
  | native f m => rw [typeP, htn]; exact .cons (by decide)

theorem alias_run {ms : Macros} {b : Bool} {g r : Bytes} {a : Alias} (hg : GapOk b g) (h : a.Ok ms) : Run ms b (aliasP g a) r true := by
  cases h with
  | @named n t l h1 h2 h3 =>
    refine .kw hg word_using (by decide +kernel) (by decide) (.cons (by decide)) (.id (.of one_space) h1 (.cons (by decide)) (.pu (.of one_space) (f := b!"=") (by decide) ?_
      (.append (type_run (.of one_space) h2 ending_ends.1 ending_ends.2) (ending_run (gap_spaces (typeGap_spaces t)) h3))))
    rw [written_append, List.append_assoc]
    exact type_ends.not (by decide)
  | space h1 =>
    exact .kw hg word_using (by decide +kernel) (by decide) (.cons (by decide)) (.kw (.of one_space) word_namespace (by decide +kernel) (by decide) (.cons (by decide))
      (.id (.of one_space) h1 (.cons (by decide)) .semi))
  | @typedef t n l h1 h2 h3 =>
    have e : ∀ m, Ends b!" " (written (idP (typeGap t ++ b!" ") n :: m) ++ r) := fun m => by
      rw [written_cons, idP_all, List.append_assoc, List.append_assoc]; exact gap_ends
    refine .kw hg word_typedef (by decide +kernel) (by decide) ?_ (.append (type_run (.of one_space) h1 ((e _).mono (by decide)) fun _ => e _) (.id (.of (gap_name t)) h2 ?_
      (ending_run (by intro x hx; cases hx) h3)))
    · rw [written_append, List.append_assoc]; exact type_ends.mono (by decide)
    · have := (ending_ends (t := ⟨t.name, []⟩) (l := l) (r := r)).1
      exact this

theorem On.alias {c : Bytes} {ms : Macros} {p : Pos} {g : Bytes} {a : Alias} (h : a.Ok ms) (ho : On c p (aliasP g a)) : AliasToks c a.text (toksAt p (aliasP g a)) := by
  cases h with
  | @named n t l h1 h2 h3 =>
    rw [aliasP] at ho ⊢
    obtain ⟨bs, u, e1, e2, e3⟩ := On.ending h3 ho.tail.tail.tail.right
    have := AliasToks.alias (t := tokOf p (kwP g b!"using" .Decl_Using)) rfl (ho.tail.idTok h1.word) ho.tail.tail.tokIs (ho.tail.tail.tail.left.type h2) (.bounds e2) e3
    rw [toksAt_cons, toksAt_cons, toksAt_cons, toksAt_append, e1, Alias.text, Ty.text]
    simpa using this
  | space h1 => exact .space rfl rfl (ho.tail.tail.idTok h1.word) ho.tail.tail.tail.tokIs
  | @typedef t n l h1 h2 h3 h4 =>
    rw [aliasP] at ho ⊢
    obtain ⟨bs, u, e1, e2, e3⟩ := On.ending h3 ho.tail.right.tail
    have := AliasToks.typedef (t := tokOf p (kwP g b!"typedef" .Decl_Typedef)) rfl (ho.tail.left.type h1) (ho.tail.right.idTok h2.word) (.bounds e2) (by simpa using h4) e3
    rw [toksAt_cons, toksAt_append, toksAt_cons, e1, Alias.text, Ty.text]
    simpa using this

/-! ## Enums -/

def entryP (g : Bytes) (e : Entry) : List Piece := idP g e.name :: pvalueP b!" " e.value

def commaP : Piece := puP [] b!"," .Comma 1

def entriesP (g : Bytes) (c : Bool) : List Entry → List Piece
  | [] => []
  | [e] => entryP g e ++ (if c then [commaP] else [])
  | e :: f :: l => entryP g e ++ commaP :: entriesP [] c (f :: l)

theorem written_entry {ms : Macros} {g : Bytes} {e : Entry} (h : e.Ok ms) : written (entryP g e) = g ++ e.text := by
  rw [entryP, written_cons, idP_all, pvalueP, Entry.text]
  by_cases hv : e.value = []
  · rw [if_pos hv, hv, written_nil, after_nil']
    simp
  · have hc := (h.value hv).1
    rw [if_neg hv, written_cons, puP_all, hc.written_lead, after_of hc.written_ne]
    simp

theorem inner_cons {e f : Entry} {l : List Entry} {c : Bool} : (⟨false, [], none, e :: f :: l, c⟩ : Enum).inner = e.text ++ (b!"," ++ (⟨false, [], none, f :: l, c⟩ : Enum).inner) := by
  simp [Enum.inner, List.intercalate, List.intersperse]

theorem written_entries {ms : Macros} {c : Bool} {l : List Entry} : ∀ {g : Bytes}, (∀ e ∈ l, e.Ok ms) →
    written (entriesP g c l) = (if l = [] then [] else g) ++ (⟨false, [], none, l, c⟩ : Enum).inner := by
  induction l with
  | nil => intro g _; simp [entriesP, Enum.inner, List.intercalate]
  | cons e l ih =>
    intro g h
    have he := h e List.mem_cons_self
    cases l with
    | nil =>
      rw [entriesP, written_append, written_entry he, if_neg (show ¬ [e] = [] by simp)]
      cases c <;> simp [Enum.inner, List.intercalate, commaP]
    | cons f l =>
      rw [entriesP, written_append, written_entry he, if_neg (by simp), written_cons, ih fun x hx => h x (List.mem_cons_of_mem _ hx), inner_cons]
      simp [commaP]

theorem entry_run {ms : Macros} {g r : Bytes} {e : Entry} (hg : Spaces g) (h : e.Ok ms) (hr : Ends b!",\n" r) : Run ms false (entryP g e) r false := by
  rw [entryP, pvalueP]
  by_cases hv : e.value = []
  · rw [if_pos hv]
    exact .id (.of hg) h.name (hr.mono (by decide)) .nil
  · obtain ⟨h1, h2, h3, -⟩ := h.value hv
    rw [if_neg hv]
    refine .id (.of hg) h.name (.cons (by decide)) (.pu (.of one_space) (f := b!"=") (by decide) ?_ ?_)
    · rw [h1.written_lead]; exact (Ends.cons (s := b!" ") (by decide)).not (by decide)
    · obtain ⟨b, t, rfl, hb⟩ := hr
      simp only [List.mem_cons, List.not_mem_nil, or_false] at hb
      rcases hb with rfl | rfl
      · have := h1.run (r := 44 :: t) one_space rfl
        rwa [h1.line h3] at this
      · have := h2.run (r := 10 :: t) one_space rfl
        rwa [h2.line h3] at this

theorem entries_run {ms : Macros} {c : Bool} {r : Bytes} {l : List Entry} : ∀ {g : Bytes}, Spaces g → (∀ e ∈ l, e.Ok ms) → Ends b!"\n" r → Run ms false (entriesP g c l) r false := by
  induction l with
  | nil => intro g _ _ _; exact .nil
  | cons e l ih =>
    intro g hg h hr
    have he := h e List.mem_cons_self
    cases l with
    | nil =>
      rw [entriesP]
      cases c with
      | false => simp only [Bool.false_eq_true, if_false, List.append_nil]; exact entry_run hg he (hr.mono (by decide))
      | true => exact .append (entry_run hg he (.cons (by decide))) (.pu .nil (f := []) (by decide) notNext_none .nil)
    | cons f l =>
      exact .append (entry_run hg he (.cons (by decide))) (.pu .nil (f := []) (by decide) notNext_none (ih (by intro x hx; cases hx) (fun x hx => h x (List.mem_cons_of_mem _ hx)) hr))

theorem On.entry {c : Bytes} {ms : Macros} {p : Pos} {g : Bytes} {e : Entry} (h : e.Ok ms) (ho : On c p (entryP g e)) : EnumeratorToks c (toksAt p (entryP g e)) := by
  rw [entryP, pvalueP] at ho ⊢
  by_cases hv : e.value = []
  · rw [if_pos hv] at ho ⊢
    exact .plain (ho.idTok h.name.word)
  · obtain ⟨h1, h2, h3, h4⟩ := h.value hv
    rw [if_neg hv] at ho ⊢
    refine .value (ho.idTok h.name.word) ho.tail.tokIs fun t ht => ?_
    obtain ⟨q, h5, h6⟩ := mem_lead ht
    exact ⟨h1.codes t ht, by rw [h6]; exact h4 q h5⟩

theorem entry_last {ms : Macros} {g : Bytes} {e : Entry} (h : e.Ok ms) : ∃ q, (entryP g e).getLast? = some q ∧ q.over = [] := by
  rw [entryP, pvalueP]
  by_cases hv : e.value = []
  · rw [if_pos hv]; exact ⟨_, rfl, rfl⟩
  · obtain ⟨q, hq⟩ := getLast_ex hv
    obtain ⟨q', h1, h2, -⟩ := lead_last (g := b!" ") hq
    rw [if_neg hv]
    refine ⟨q', ?_, by rw [h2]; exact (h.value hv).2.2.1 q hq⟩
    obtain ⟨m, hm⟩ := List.getLast?_eq_some_iff.mp h1
    rw [hm, ← List.cons_append, ← List.cons_append]
    exact List.getLast?_concat

theorem entry_ne {ms : Macros} {e : Entry} (h : e.Ok ms) {x : Bytes} : e.text ++ x ≠ [] := by
  rw [Entry.text]
  simp [isWord_ne h.name.word]

theorem On.entries {c : Bytes} {ms : Macros} {k : Bool} {l : List Entry} : ∀ {g : Bytes} {p : Pos}, (∀ e ∈ l, e.Ok ms) → On c p (entriesP g k l) →
    EnumToks c (⟨false, [], none, l, k⟩ : Enum).inner (toksAt p (entriesP g k l)) := by
  induction l with
  | nil => intro g p _ _; rw [show (⟨false, [], none, [], k⟩ : Enum).inner = [] by simp [Enum.inner, List.intercalate]]; exact .nil
  | cons e l ih =>
    intro g p h ho
    have he := h e List.mem_cons_self
    have hcomma : ∀ {m : List Piece}, On c p (entryP g e ++ commaP :: m) → Spans c (toksAt p (entryP g e) ++ [] ++ [tokOf (p.after (written (entryP g e))) commaP]) (e.text ++ b!",") := by
      intro m ho
      have := ho.cut.spans (q := idP g e.name) (r := commaP) (x := e.text ++ b!",") rfl List.getLast?_concat (by rw [written_append, written_entry he]; simp [commaP, idP, puP, Piece.all])
      rw [toksAt_append, toksAt_cons, toksAt_nil] at this
      simpa using this
    cases l with
    | nil =>
      rw [entriesP] at ho ⊢
      cases k with
      | false =>
        simp only [Bool.false_eq_true, if_false, List.append_nil] at ho ⊢
        obtain ⟨q, h1, h2⟩ := entry_last (g := g) he
        have hs := ho.spans (q := idP g e.name) (r := q) (x := e.text) rfl h1 (by rw [written_entry he, h2]; simp [idP])
        have := EnumToks.last (fs := []) (On.entry he ho) (by intro t ht; cases ht) (by rw [List.append_nil]; exact hs) (by simpa using entry_ne he (x := []))
        rw [show (⟨false, [], none, [e], false⟩ : Enum).inner = e.text by simp [Enum.inner, List.intercalate]]
        simpa using this
      | true =>
        have := EnumToks.entry (fs := []) (On.entry he ho.left) (by intro t ht; cases ht) rfl (hcomma ho) (entry_ne he) .nil
        rw [show (⟨false, [], none, [e], true⟩ : Enum).inner = e.text ++ b!"," by simp [Enum.inner, List.intercalate]]
        simp only [if_true, toksAt_append, toksAt_cons, toksAt_nil]
        simpa using this
    | cons f l =>
      rw [entriesP] at ho ⊢
      have := EnumToks.entry (fs := []) (On.entry he ho.left) (by intro t ht; cases ht) rfl (hcomma ho) (entry_ne he) (ih (fun x hx => h x (List.mem_cons_of_mem _ hx)) ho.right.tail)
      rw [inner_cons, toksAt_append, toksAt_cons]
      simpa using this

def underP : Option Ty → List Piece
  | none => []
  | some t => puP b!" " b!":" .Assign_Classifer 0 :: typeP b!" " t

def underGap : Option Ty → Bytes
  | none => []
  | some t => typeGap t

def enumHeadP (g : Bytes) (e : Enum) : List Piece :=
  kwP g b!"enum" .Decl_Enum :: ((if e.cls then [kwP b!" " b!"class" .Decl_Class] else []) ++ idP b!" " e.name :: underP e.under)

/-- The gap in front of the closing brace. -/
def enumGap (e : Enum) : Bytes := if e.entries = [] then b!"\n\n" else b!"\n"

def enumP (g : Bytes) (e : Enum) : List Piece :=
  enumHeadP g e ++ puP (underGap e.under ++ b!"\n") b!"{" .BraceCurly_Open 0 :: (entriesP b!"\n" e.comma e.entries ++ [closeP (enumGap e) [], semiP])

theorem closeP_all {g e : Bytes} : (closeP g e).all = g ++ b!"}" ++ e := rfl

theorem written_enumHead {g : Bytes} {e : Enum} : written (enumHeadP g e) ++ underGap e.under = g ++ e.head := by
  rw [enumHeadP, written_cons, written_append, written_cons, kwP_all, idP_all, Enum.head]
  obtain ⟨c, n, u, es, k⟩ := e
  cases u with
  | none => cases c <;> simp [underP, underGap]
  | some t =>
    have := written_type (g := b!" ") (t := t)
    cases c
    · simp only [underP, underGap, written_cons, puP_all, List.append_assoc, this]
      simp
    · simp only [underP, underGap, written_cons, puP_all, List.append_assoc, this, if_true]
      simp

theorem inner_eq {e : Enum} : (⟨false, [], none, e.entries, e.comma⟩ : Enum).inner = e.inner := rfl

theorem written_enum {ms : Macros} {g : Bytes} {e : Enum} (h : e.Ok ms) : written (enumP g e) = g ++ e.text := by
  rw [enumP, written_append, written_cons, puP_all, List.append_assoc (underGap _), List.append_assoc (underGap _), ← List.append_assoc (written (enumHeadP _ _)), written_enumHead,
    written_append, written_entries h.entries, inner_eq, written_cons, closeP_all, Enum.text, enumGap]
  by_cases he : e.entries = []
  · have hi : e.inner = [] := by simp [Enum.inner, he, List.intercalate]
    rw [if_pos he, if_pos he, hi]
    simp
  · rw [if_neg he, if_neg he]
    simp

theorem under_ends {u : Option Ty} {r : Bytes} : Ends b!" \n" (written (underP u) ++ (underGap u ++ b!"\n" ++ r)) := by
  cases u with
  | none => exact .cons (by decide)
  | some t => exact .cons (by decide)

theorem under_run {ms : Macros} {u : Option Ty} {r : Bytes} (h : ∀ t, u = some t → t.Ok ms) : Run ms false (underP u) (underGap u ++ b!"\n" ++ r) false := by
  cases u with
  | none => exact .nil
  | some t =>
    refine .pu (.of one_space) (f := b!":") (by decide) (type_ends.not (by decide)) (type_run (.of one_space) (h t rfl) ?_ fun hs => ?_)
    · rw [List.append_assoc]; exact Ends.gap (by decide) (typeGap_spaces t) (.cons (by decide))
    · rw [underGap, typeGap, if_neg hs]; exact .cons (by decide)

theorem enumHead_run {ms : Macros} {b : Bool} {g r : Bytes} {e : Enum} (hg : GapOk b g) (hn : IsName ms e.name) (h : ∀ t, e.under = some t → t.Ok ms) :
    Run ms b (enumHeadP g e) (underGap e.under ++ b!"\n" ++ r) false := by
  have h1 : Run ms false (idP b!" " e.name :: underP e.under) (underGap e.under ++ b!"\n" ++ r) false := .id (.of one_space) hn (under_ends.mono (by decide)) (under_run h)
  rw [enumHeadP]
  cases e.cls with
  | false => exact .kw hg word_enum (by decide +kernel) (by decide) (.cons (by decide)) h1
  | true => exact .kw hg word_enum (by decide +kernel) (by decide) (.cons (by decide)) (.kw (.of one_space) word_class (by decide +kernel) (by decide) (.cons (by decide)) h1)

theorem under_newline (u : Option Ty) : Spaces (underGap u ++ b!"\n") := by
  intro x hx
  rcases List.mem_append.mp hx with hx | hx
  · cases u with
    | none => cases hx
    | some t => rw [typeGap_spaces t x hx]; decide
  · exact newline_space x hx

/-- `};` at the end of its line. -/
theorem closing_run {ms : Macros} {b : Bool} {g r : Bytes} (hg : GapOk b g) : Run ms b [closeP g [], semiP] r true :=
  .append (l := [closeP g []]) (close_run hg (Lex.LineEnd.none (n := 0) (r := semiP.all ++ r) (by intro x hx; cases hx; decide))) .semi

theorem enum_run {ms : Macros} {b : Bool} {g r : Bytes} {e : Enum} (hg : GapOk b g) (h : e.Ok ms) : Run ms b (enumP g e) r true := by
  refine .append ?_ (.pu (.of (under_newline e.under)) (f := []) (by decide) notNext_none (.append (entries_run newline_space h.entries ?_) (closing_run ?_)))
  · rw [written_cons, puP_all, List.append_assoc, List.append_assoc]
    exact enumHead_run hg h.name h.under
  · rw [enumGap]; split <;> exact .cons (by decide)
  · rw [enumGap]; split
    · exact .of newlines_space
    · exact .of newline_space

theorem On.enumHead {c : Bytes} {ms : Macros} {p : Pos} {g : Bytes} {e : Enum} (h : e.Ok ms) (ho : On c p (enumHeadP g e)) : EnumHead c e.head (toksAt p (enumHeadP g e)) := by
  obtain ⟨hn, hc, hu, -⟩ := h
  obtain ⟨k, n, u, es, z⟩ := e
  cases u with
  | none =>
    cases k with
    | false =>
      have := EnumHead.plain (t := tokOf p (kwP g b!"enum" .Decl_Enum)) rfl (ho.tail.idTok hn.word)
      rw [show (⟨false, n, none, es, z⟩ : Enum).head = b!"enum " ++ n by simp [Enum.head]]
      exact this
    | true => exact absurd rfl (hc rfl)
  | some t =>
    cases k with
    | false =>
      have ho' : On c p (kwP g b!"enum" .Decl_Enum :: idP b!" " n :: puP b!" " b!":" .Assign_Classifer 0 :: typeP b!" " t) := ho
      rw [show (⟨false, n, some t, es, z⟩ : Enum).head = b!"enum " ++ n ++ b!" : " ++ Parse.typeText t.name.text t.specs by simp [Enum.head, Ty.text]]
      exact EnumHead.typed (t := tokOf p (kwP g b!"enum" .Decl_Enum)) (q := tokOf _ (puP b!" " b!":" .Assign_Classifer 0)) rfl (ho'.tail.idTok hn.word) rfl (ho'.tail.tail.tail.type (hu t rfl))
    | true =>
      have ho' : On c p (kwP g b!"enum" .Decl_Enum :: kwP b!" " b!"class" .Decl_Class :: idP b!" " n :: puP b!" " b!":" .Assign_Classifer 0 :: typeP b!" " t) := ho
      rw [show (⟨true, n, some t, es, z⟩ : Enum).head = b!"enum class " ++ n ++ b!" : " ++ Parse.typeText t.name.text t.specs by simp [Enum.head, Ty.text]]
      exact EnumHead.cls (t := tokOf p (kwP g b!"enum" .Decl_Enum)) (v := tokOf _ (kwP b!" " b!"class" .Decl_Class)) (q := tokOf _ (puP b!" " b!":" .Assign_Classifer 0)) rfl rfl
        (ho'.tail.tail.idTok hn.word) rfl (ho'.tail.tail.tail.tail.type (hu t rfl))

theorem On.enum {c : Bytes} {ms : Macros} {p : Pos} {g : Bytes} {e : Enum} (h : e.Ok ms) (ho : On c p (enumP g e)) : EnumDecl c e.text (toksAt p (enumP g e)) := by
  rw [enumP] at ho ⊢
  have := EnumDecl.mk (On.enumHead h ho.left) ho.right.tokIs (On.entries h.entries ho.right.tail.left) ho.right.tail.right.tokIs ho.right.tail.right.tail.tokIs
  rw [toksAt_append, toksAt_cons, toksAt_append, toksAt_cons, toksAt_cons, toksAt_nil, Enum.text, ← inner_eq]
  simpa using this

end Verif.Round
