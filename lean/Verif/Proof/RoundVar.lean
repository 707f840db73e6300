import Verif.Proof.RoundType
/-!
# C59: expressions and variables
-/
namespace Verif.Round
open Verif.Lex (Tok Pos Macros Piece Reads CommentText Spaces NotNext Lexes toksAt)
open Verif.Parse (TokIs Spans UpTo IdTok QualToks TypeToks SpecToks BoundToks ArrayToks InitToks TailToks VarToks Value Inside Balanced depth Code boundsText varSpecs)

/-! ## Types of tokens -/

theorem toksAt_types {l : List Piece} : ∀ {p : Pos}, (toksAt p l).map (·.type) = l.map (·.type) := by
  induction l with
  | nil => intro p; rfl
  | cons q l ih => intro p; rw [toksAt_cons, List.map_cons, List.map_cons, ih]; rfl

theorem shape_types {l : List Piece} : (shape l).map (·.type) = l.map (·.type) := by simp [shape]

theorem depth_types {o z : List TokType} {ts : List Tok} : ∀ {us : List Tok} {n : Int}, ts.map (·.type) = us.map (·.type) → depth o z ts n = depth o z us n := by
  induction ts with
  | nil => intro us n h; cases us with
    | nil => rfl
    | cons => cases h
  | cons t ts ih => intro us n h; cases us with
    | nil => cases h
    | cons u us =>
      obtain ⟨h1, h2⟩ := List.cons.inj h
      rw [depth, depth, ih h2, show t.type = u.type from h1]

theorem split_types {ts us pre post : List Tok} {t : Tok} (h : ts.map (·.type) = us.map (·.type)) (hs : ts = pre ++ t :: post) :
    ∃ pre' t' post', us = pre' ++ t' :: post' ∧ pre.map (·.type) = pre'.map (·.type) ∧ t.type = t'.type := by
  subst hs
  induction pre generalizing us with
  | nil => cases us with
    | nil => cases h
    | cons u us => exact ⟨[], u, us, rfl, rfl, (List.cons.inj h).1⟩
  | cons a pre ih => cases us with
    | nil => cases h
    | cons u us =>
      obtain ⟨h1, h2⟩ := List.cons.inj h
      obtain ⟨p', t', q', e1, e2, e3⟩ := ih h2
      exact ⟨u :: p', t', q', by rw [e1]; rfl, by rw [List.map_cons, List.map_cons, show a.type = u.type from h1, e2], e3⟩

theorem value_types {ts us : List Tok} (h : ts.map (·.type) = us.map (·.type)) (hv : Value us) : Value ts := by
  intro pre t post hs
  obtain ⟨p', t', q', e1, e2, e3⟩ := split_types h hs
  have := hv p' t' q' e1
  rw [depth_types e2]
  unfold Code at *
  rw [e3]
  exact this

theorem inside_types {o z : TokType} {ts us : List Tok} (h : ts.map (·.type) = us.map (·.type)) (hv : Inside o z us) : Inside o z ts := by
  refine ⟨fun pre t post hs => ?_, by rw [depth_types h]; exact hv.2⟩
  obtain ⟨p', t', q', e1, e2, e3⟩ := split_types h hs
  have := hv.1 p' t' q' e1
  rw [depth_types e2]
  unfold Code at *
  rw [e3]
  exact this

theorem balanced_types {ts us : List Tok} (h : ts.map (·.type) = us.map (·.type)) (hv : Balanced us) : Balanced ts := by
  refine ⟨fun pre t post hs => ?_, by rw [depth_types h]; exact hv.2⟩
  obtain ⟨p', t', q', e1, e2, e3⟩ := split_types h hs
  have := hv.1 p' t' q' e1
  rw [depth_types e2, e3]
  exact this

/-! ## Expressions -/

/-- With the gap `g` in front. -/
def lead (g : Bytes) : List Piece → List Piece
  | [] => []
  | q :: l => { q with gap := g } :: l

theorem lead_types {g : Bytes} {k : List Piece} : (lead g k).map (·.type) = k.map (·.type) := by cases k <;> rfl

theorem lead_shape {g : Bytes} {k : List Piece} {p : Pos} : (toksAt p (lead g k)).map (·.type) = (shape k).map (·.type) := by rw [toksAt_types, lead_types, shape_types]

theorem written_lead {g : Bytes} {k : List Piece} (h0 : k ≠ []) (h : ∀ q, k.head? = some q → q.gap = []) : written (lead g k) = g ++ written k := by
  cases k with
  | nil => exact absurd rfl h0
  | cons q l => simp [lead, Piece.all, h q rfl]

theorem piece_line {b b' : Bool} {q : Piece} (h : q.text ≠ []) (g : Bytes) : lineStart b { q with gap := g }.all = lineStart b' q.all := by
  have key : ∀ (b : Bool) (g : Bytes), lineStart b { q with gap := g }.all = lineStart false (q.text ++ q.over) := by
    intro b g
    rw [show Piece.all { q with gap := g } = g ++ (q.text ++ q.over) by simp [Piece.all], lineStart_append]
    unfold lineStart
    rw [List.getLast?_append]
    cases q.over.getLast? with
    | some => rfl
    | none => cases ht : q.text.getLast? with
      | none => exact absurd (List.getLast?_eq_none_iff.mp ht) h
      | some => rfl
  rw [key b g]
  exact (key b' q.gap).symm

/-- Another gap in front of a piece that is no line break. -/
theorem lead_sits {ms : Macros} {b b' : Bool} {g r : Bytes} {k : List Piece} (hg : GapOk b' g) (hn : ∀ q, k.head? = some q → q.type ≠ .NewLine) (h : Sits ms b k r) :
    Sits ms b' (lead g k) r := by
  cases k with
  | nil => trivial
  | cons q l =>
    obtain ⟨h1, h2, h3, h4⟩ := h
    refine ⟨hg.1, hg.2, ?_, ?_⟩
    · cases h3 with
      | token h => exact .token h
      | newline => exact absurd rfl (hn _ rfl)
      | comment h => exact .comment h
    · rw [piece_line (b' := b) (isPiece_text h3)]
      exact h4

theorem lead_line {ms : Macros} {b b' : Bool} {g r : Bytes} {k : List Piece} (h0 : k ≠ []) (h : Sits ms b k r) : lineStart b' (written (lead g k)) = lineStart b (written k) := by
  cases k with
  | nil => exact absurd rfl h0
  | cons q l =>
    rw [lead, written_cons, written_cons, lineStart_append, lineStart_append, piece_line (b' := b) (isPiece_text h.2.2.1)]

theorem IsCode.run {ms : Macros} {k : List Piece} {g r s : Bytes} (h : IsCode ms k s) (hg : Spaces g) (hr : r.head? = s.head?) :
    Run ms false (lead g k) r (lineStart false (written k)) := by
  refine ⟨lead_sits (.of hg) (fun q hq => (h.code q (List.mem_of_head? hq)).1) (sits_head hr h.sits), ?_⟩
  exact lead_line h.filled h.sits

theorem IsCode.line {ms : Macros} {k : List Piece} {s : Bytes} (h : IsCode ms k s) (hc : Closed k) : lineStart false (written k) = false := by
  obtain ⟨m, q, rfl⟩ : ∃ m q, k = m ++ [q] := ⟨_, _, (List.dropLast_concat_getLast h.filled).symm⟩
  have ho := hc q List.getLast?_concat
  have hs := (sits_append.mp h.sits).2
  have hcode := h.code q (by simp)
  cases hs.2.2.1 with
  | newline => exact absurd rfl hcode.1
  | comment => exact absurd rfl hcode.2
  | token hr =>
    have hl := Lex.reads_last hr ho
    rw [written_append, lineStart_append, written_cons, written_nil, List.append_nil, Piece.all, ho, List.append_nil, lineStart_append]
    cases hx : q.text.getLast? with
    | none => exact absurd (List.getLast?_eq_none_iff.mp hx) (Lex.reads_text hr)
    | some y =>
      rw [lineStart_of hx]
      rw [hx] at hl
      exact beq_eq_false_iff_ne.mpr fun hh => hl (by rw [hh])

theorem IsCode.written_ne {ms : Macros} {k : List Piece} {s : Bytes} (h : IsCode ms k s) : written k ≠ [] := by
  cases hk : k with
  | nil => exact absurd hk h.filled
  | cons q l =>
    have := h.sits
    rw [hk] at this
    rw [written_cons]
    simp [isPiece_all this.2.2.1]

theorem IsCode.written_lead {ms : Macros} {k : List Piece} {g s : Bytes} (h : IsCode ms k s) : written (lead g k) = g ++ written k := Round.written_lead h.filled h.tight

theorem lead_head {g : Bytes} {k : List Piece} (h : k ≠ []) : ∃ q, (lead g k).head? = some q ∧ q.gap = g := by
  cases k with
  | nil => exact absurd rfl h
  | cons q l => exact ⟨_, rfl, rfl⟩

theorem lead_last {g : Bytes} {k : List Piece} {q : Piece} (h : k.getLast? = some q) : ∃ q', (lead g k).getLast? = some q' ∧ q'.over = q.over ∧ q'.type = q.type := by
  cases k with
  | nil => cases h
  | cons a l =>
    cases l with
    | nil => cases h; exact ⟨_, rfl, rfl, rfl⟩
    | cons b l => rw [List.getLast?_cons_cons] at h; exact ⟨q, by rw [lead, List.getLast?_cons_cons]; exact h, rfl, rfl⟩

/-- Its text. -/
theorem IsCode.spans {ms : Macros} {c : Bytes} {p : Pos} {k : List Piece} {g s : Bytes} (h : IsCode ms k s) (hc : Closed k) (ho : On c p (lead g k)) :
    Spans c (toksAt p (lead g k)) (written k) := by
  obtain ⟨q, hq, hg⟩ := lead_head (g := g) h.filled
  obtain ⟨l, hl⟩ : ∃ l, k.getLast? = some l := by
    cases hl : k.getLast? with
    | none => exact absurd (List.getLast?_eq_none_iff.mp hl) h.filled
    | some l => exact ⟨l, rfl⟩
  obtain ⟨l', h1, h2, -⟩ := lead_last (g := g) hl
  exact ho.spans hq h1 (by rw [h.written_lead, hg, h2, hc l hl, List.append_nil])

theorem mem_lead {g : Bytes} {k : List Piece} {p : Pos} {t : Tok} (h : t ∈ toksAt p (lead g k)) : ∃ q ∈ k, t.type = q.type := by
  have : t.type ∈ (toksAt p (lead g k)).map (·.type) := List.mem_map.mpr ⟨t, h, rfl⟩
  rw [toksAt_types, lead_types] at this
  obtain ⟨q, h1, h2⟩ := List.mem_map.mp this
  exact ⟨q, h1, h2.symm⟩

theorem IsCode.codes {ms : Macros} {k : List Piece} {g s : Bytes} {p : Pos} (h : IsCode ms k s) : ∀ t ∈ toksAt p (lead g k), Code t := by
  intro t ht
  obtain ⟨q, h1, h2⟩ := mem_lead ht
  unfold Code
  rw [h2]
  exact h.code q h1

/-! ## Bounds -/

def boundP (k : List Piece) : List Piece := puP [] b!"[" .BraceSquare_Open 0 :: (lead b!" " k ++ [puP b!" " b!"]" .BraceSquare_Close 0])

def boundsP (l : List (List Piece)) : List Piece := l.flatMap boundP

theorem one_space : Spaces b!" " := by intro x hx; cases hx with | head => decide | tail _ h => cases h

theorem written_bounds {ms : Macros} {l : List (List Piece)} (h : ∀ k ∈ l, IsBound ms k) : written (boundsP l) = boundsText (l.map written) := by
  induction l with
  | nil => rfl
  | cons k l ih =>
    rw [boundsP, List.flatMap_cons, written_append, ← boundsP, ih fun x hx => h x (List.mem_cons_of_mem _ hx)]
    simp [boundP, boundsText, (h k List.mem_cons_self).1.written_lead]

theorem bounds_run {ms : Macros} {l : List (List Piece)} {r : Bytes} (h : ∀ k ∈ l, IsBound ms k) : Run ms false (boundsP l) r false := by
  induction l with
  | nil => exact .nil
  | cons k l ih =>
    have hk := h k List.mem_cons_self
    rw [boundsP, List.flatMap_cons, boundP]
    refine .append (.pu .nil (f := b!"]") (by decide) ?_ (.append (b1 := false) ?_ (.pu (.of one_space) (f := []) (by decide) notNext_none .nil))) (ih fun x hx => h x (List.mem_cons_of_mem _ hx))
    · rw [written_append, hk.1.written_lead]
      exact (Ends.cons (s := b!" ") (by decide)).not (by decide)
    · have := hk.1.run (r := written [puP b!" " b!"]" .BraceSquare_Close 0] ++ (written (boundsP l) ++ r)) one_space (by simp)
      rw [hk.1.line hk.2.1] at this
      exact this

theorem On.bounds {c : Bytes} {ms : Macros} {l : List (List Piece)} (h : ∀ k ∈ l, IsBound ms k) : ∀ {p : Pos}, On c p (boundsP l) → BoundToks c (l.map written) (toksAt p (boundsP l)) := by
  induction l with
  | nil => intro p _; exact .nil
  | cons k l ih =>
    intro p ho
    have hk := h k List.mem_cons_self
    rw [boundsP, List.flatMap_cons, boundP] at ho ⊢
    have h2 := ho.right
    have h1 := ho.left
    have e := h1.tail
    rw [toksAt_append, toksAt_cons, toksAt_append, toksAt_cons, toksAt_nil]
    have := BoundToks.cons (x := written k) ho.head.tokIs (inner := toksAt (p.after (puP [] b!"[" .BraceSquare_Open 0).all) (lead b!" " k)) (fun t ht => ?_) (hk.1.spans hk.2.1 e.left) hk.1.written_ne
      e.right.tokIs (ih (fun x hx => h x (List.mem_cons_of_mem _ hx)) h2)
    · simpa [boundsP] using this
    · obtain ⟨q, q1, q2⟩ := mem_lead ht
      exact ⟨hk.1.codes t ht, by rw [q2]; exact hk.2.2 q q1⟩

/-! ## Tails -/

def initP : Init → List Piece
  | .none => []
  | .value k => puP b!" " b!"=" .Operator 3 :: lead b!" " k
  | .parens k => puP [] b!"(" .Paren_Open 0 :: (lead b!" " k ++ [puP b!"  " b!")" .Paren_Close 0])

def tailP : Tail → List Piece
  | .array l i => boundsP l ++ initP i
  | .bits k => puP b!" " b!":" .Assign_Classifer 0 :: lead b!" " k

theorem written_init {ms : Macros} {i : Init} (h : i.Ok ms) : written (initP i) = i.text := by
  cases h with
  | none => rfl
  | value hk => simp [initP, Init.text, hk.written_lead]
  | parens hk => simp [initP, Init.text, hk.written_lead]

theorem written_tail {ms : Macros} {t : Tail} (h : t.Ok ms) : written (tailP t) = t.text := by
  cases h with
  | array hl hi => rw [tailP, written_append, written_bounds hl, written_init hi, Tail.text]
  | bits hk => simp [tailP, Tail.text, hk.written_lead]

theorem two_spaces : Spaces b!"  " := by intro x hx; cases hx with | head => decide | tail _ h => cases h with | head => decide | tail _ h => cases h

theorem init_run {ms : Macros} {i : Init} {r : Bytes} (h : i.Ok ms) : ∃ b, Run ms false (initP i) (b!";" ++ r) b := by
  cases h with
  | none => exact ⟨_, .nil⟩
  | @value k hk hv =>
    refine ⟨_, .pu (.of one_space) (f := b!"=") (by decide) ?_ (hk.run one_space rfl)⟩
    rw [hk.written_lead]
    exact (Ends.cons (s := b!" ") (by decide)).not (by decide)
  | @parens k hk hc hi =>
    refine ⟨false, .pu .nil (f := []) (by decide) notNext_none (.append (b1 := false) ?_ (.pu (.of two_spaces) (f := []) (by decide) notNext_none .nil))⟩
    have := hk.run (r := written [puP b!"  " b!")" .Paren_Close 0] ++ (b!";" ++ r)) one_space rfl
    rw [hk.line hc] at this
    exact this

theorem tail_run {ms : Macros} {t : Tail} {r : Bytes} (h : t.Ok ms) : ∃ b, Run ms false (tailP t) (b!";" ++ r) b := by
  cases h with
  | array hl hi =>
    obtain ⟨b, hb⟩ := init_run (r := r) hi
    exact ⟨b, .append (bounds_run hl) hb⟩
  | @bits k hk hc =>
    refine ⟨_, .pu (.of one_space) (f := b!":") (by decide) ?_ (hk.run one_space rfl)⟩
    rw [hk.written_lead]
    exact (Ends.cons (s := b!" ") (by decide)).not (by decide)

theorem bounds_ends {l : List (List Piece)} {r : Bytes} (hr : Ends b!" (;" r) : Ends b!" ([;" (written (boundsP l) ++ r) := by
  cases l with
  | nil => exact hr.mono (by decide)
  | cons k l => exact .cons (by decide)

theorem init_ends {i : Init} {r : Bytes} : Ends b!" (;" (written (initP i) ++ (b!";" ++ r)) := by
  cases i <;> exact .cons (by decide)

/-- What follows the name of a variable. -/
theorem tail_ends {t : Tail} {r : Bytes} : Ends stops (written (tailP t) ++ (b!";" ++ r)) := by
  cases t with
  | array l i =>
    rw [tailP, written_append, List.append_assoc]
    exact (bounds_ends init_ends).mono (by decide)
  | bits k => exact .cons (by decide)

theorem On.init {c : Bytes} {ms : Macros} {i : Init} {p : Pos} (h : i.Ok ms) (ho : On c p (initP i ++ [semiP])) :
    InitToks c (tokOf (p.after (written (initP i))) semiP) i.text (toksAt p (initP i)) := by
  cases h with
  | none => exact .none
  | @value k hk hv =>
    rw [initP] at ho ⊢
    rw [toksAt_cons]
    have e := ho.tail
    obtain ⟨q, hq, hg⟩ := lead_head (g := b!" ") hk.filled
    have := e.upTo hq (x := written k) (by rw [hk.written_lead, hg]; simp [semiP])
    refine .value ho.tokIs (value_types lead_shape hv) ?_ hk.written_ne
    rw [written_cons, Lex.after_append]
    exact this
  | @parens k hk hc hi =>
    rw [initP] at ho ⊢
    have e := ho.left
    rw [toksAt_cons, toksAt_append, toksAt_cons, toksAt_nil]
    exact .parens e.tokIs (inside_types lead_shape hi) e.tail.right.tokIs (hk.spans hc e.tail.left) hk.written_ne

theorem On.tail' {c : Bytes} {ms : Macros} {t : Tail} {p : Pos} (h : t.Ok ms) (ho : On c p (tailP t ++ [semiP])) :
    TailToks c (tokOf (p.after (written (tailP t))) semiP) t.text (toksAt p (tailP t)) := by
  cases h with
  | @array l i hl hi =>
    rw [tailP] at ho ⊢
    rw [toksAt_append, written_append, Lex.after_append]
    rw [List.append_assoc] at ho
    exact .array (.bounds (On.bounds hl ho.left)) (On.init hi ho.right)
  | @bits k hk hc hs =>
    rw [tailP] at ho ⊢
    have e := ho.left
    rw [toksAt_cons]
    refine .bits e.tokIs (fun t ht => ?_) (hk.spans hc e.tail) hk.written_ne
    obtain ⟨q, q1, q2⟩ := mem_lead ht
    exact ⟨hk.codes t ht, by rw [q2]; exact hs q q1⟩

/-! ## Variables -/

/-- Specifiers with the gap `g` in front. -/
def marksP (g : Bytes) : List Specifier → List Piece
  | [] => []
  | s :: l => specP g s :: specsP markGap l

/-- Specifiers, type and name. -/
def declP (g : Bytes) (l : List Specifier) (t : Ty) (n : Qual) : List Piece :=
  marksP g l ++ (typeP (if l = [] then g else b!" ") t ++ qualP (typeGap t ++ b!" ") n)

def varP (g : Bytes) (v : Var) : List Piece := declP g v.specs v.ty v.name ++ (tailP v.tail ++ [semiP])

theorem written_decl {g : Bytes} {l : List Specifier} {t : Ty} {n : Qual} :
    written (declP g l t n) = g ++ ((if l = [] then [] else Ser.specsText l) ++ t.text ++ b!" " ++ n.text) := by
  have ht : ∀ g, written (typeP g t) ++ (typeGap t ++ b!" " ++ n.text) = g ++ t.text ++ (b!" " ++ n.text) := fun g => by
    rw [List.append_assoc, ← List.append_assoc, written_type]
  rw [declP, written_append, written_append, written_qual, ht]
  cases l with
  | nil => simp [marksP]
  | cons s l =>
    have := written_marks (g := g) (s := s) (l := l)
    rw [marksP, if_neg (by simp), if_neg (by simp), ← List.append_assoc, ← List.append_assoc, ← List.append_assoc, this]
    simp only [List.append_assoc]

theorem written_var {ms : Macros} {l : List Specifier} {g : Bytes} {v : Var} (h : v.Ok ms l) : written (varP g v) = g ++ v.text := by
  rw [varP, written_append, written_append, written_decl, written_tail h.tail, Var.text]
  simp

theorem gap_name (t : Ty) : Spaces (typeGap t ++ b!" ") := by
  intro x hx
  rcases List.mem_append.mp hx with hx | hx
  · rw [typeGap_spaces t x hx]; decide
  · exact one_space x hx

theorem gap_ends {t : Ty} {r : Bytes} : Ends b!" " (typeGap t ++ b!" " ++ r) := by
  unfold typeGap
  split <;> exact .cons (by decide)

theorem decl_run {ms : Macros} {b : Bool} {g r : Bytes} {l : List Specifier} {t : Ty} {n : Qual} (hg : GapOk b g) (hl : ∀ s ∈ l, s ∈ readable ∧ s ≠ .Ref) (ht : t.Ok ms)
    (hn : n.Ok ms) (hr : Ends stops r) : Run ms b (declP g l t n) r false := by
  have h2 : ∀ {b g}, GapOk b g → Run ms b (typeP g t ++ qualP (typeGap t ++ b!" ") n) r false := fun hg => by
    have e : Ends b!" " (written (qualP (typeGap t ++ b!" ") n) ++ r) := by
      rw [written_qual, List.append_assoc]
      exact gap_ends
    exact .append (type_run hg ht (e.mono (by decide)) fun _ => e) (qual_run (.of (gap_name t)) hn hr)
  rw [declP]
  cases l with
  | nil => exact h2 hg
  | cons s l =>
    have e : Ends b!" " (written (typeP (if s :: l = [] then g else b!" ") t ++ qualP (typeGap t ++ b!" ") n) ++ r) := by
      rw [if_neg (by simp), written_append]
      cases htn : t.name with
      | name q => rw [typeP, htn]; exact .cons (by decide)
      | native f m => rw [typeP, htn]; exact .cons (by decide)
    refine .append (marks_run e hg (fun x hx => (hl x hx).1) fun x hx => ?_) (by rw [if_neg (by simp)]; exact h2 (.of one_space))
    exact absurd rfl (hl .Ref (hx.subset (by simp))).2

theorem On.marks {c : Bytes} {p : Pos} {g : Bytes} {l : List Specifier} (h : On c p (marksP g l)) : SpecToks c l (toksAt p (marksP g l)) := by
  cases l with
  | nil => exact .nil
  | cons s l => exact .cons h.tokIs (specs_toks h.tail)

theorem var_run {ms : Macros} {b : Bool} {g r : Bytes} {l : List Specifier} {v : Var} (hg : GapOk b g) (h : v.Ok ms l) (hl : ∀ s ∈ l, s ≠ .External_Linkage → s ∈ readable ∧ s ≠ .Ref) :
    Run ms b (varP g v) r true := by
  obtain ⟨b', hb⟩ := tail_run (r := b!"\n" ++ r) h.tail
  refine .append (decl_run hg (fun s hs => hl s (h.specs s hs).1 (h.specs s hs).2) h.ty h.name ?_) (.append hb .semi)
  rw [written_append, List.append_assoc]
  exact tail_ends (r := b!"\n" ++ r)

theorem On.var {c : Bytes} {ms : Macros} {p : Pos} {g : Bytes} {v : Var} (h : v.Ok ms varSpecs) (ho : On c p (varP g v)) : VarToks c v.text (toksAt p (varP g v)) := by
  rw [varP] at ho ⊢
  have h1 := ho.left
  rw [declP] at h1
  rw [toksAt_append, toksAt_append, declP, toksAt_append, toksAt_append, toksAt_cons, toksAt_nil]
  have := VarToks.mk h1.left.marks (fun x hx => (h.specs x hx).1) h.few (h1.right.left.type h.ty) (h1.right.right.qual h.name) (On.tail' h.tail ho.right) ho.right.right.tokIs
  rw [Var.text, Ty.text]
  simp only [List.append_assoc] at this ⊢
  exact this

end Verif.Round
