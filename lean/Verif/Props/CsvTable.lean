import Verif.Props.Csv
/-!
# C37: the theorems about whole tables
-/
namespace Verif.Csv
open Verif.CStr

/-! ## Cells and rows -/

theorem field_head {delim : UInt8} {f : Field} (h : f.Ok delim) (hne : f.text ≠ []) :
    ∃ c u, f.source = c :: u ∧ charIsSpace c = false ∧ c ≠ 0 := by
  cases f with
  | bare t =>
    cases t with
    | nil => exact absurd rfl hne
    | cons c u => exact ⟨c, u, rfl, (Bare.first h c rfl).1, (Bare.inside h c (by simp)).1⟩
  | inQuotes t => exact ⟨34, _, rfl, by decide, by decide⟩

/-- A cell with what follows it. -/
theorem cell_at {delim x : UInt8} {p : Padded} {r : Bytes} (hd : Delim delim) (hp : p.Ok delim) (hx : x = delim ∨ x = 10)
    (hne : p.field.text ≠ [] ∨ x = delim) : ∃ n c y, trim (p.source ++ x :: r) false = .ok n ∧
      at_ ((p.source ++ x :: r).drop n) 0 = .ok c ∧ c ≠ 0 ∧ cell delim ((p.source ++ x :: r).drop n) = .ok (some ⟨p.field.text, x, y :: r⟩) := by
  obtain ⟨pre, f, post⟩ := p
  obtain ⟨hpre, hf, hpost⟩ := hp
  simp only at hne hpre hf hpost
  by_cases he : f.text = []
  · have hxd : x = delim := hne.resolve_left (fun h => h he)
    subst hxd
    have hs : f.source = [] := by
      cases f with
      | bare t => exact he
      | inQuotes t => exact absurd he hf.1
    have e : Padded.source ⟨pre, f, post⟩ ++ x :: r = (pre ++ post) ++ x :: r := by simp [Padded.source, hs]
    have hb : Blank (pre ++ post) := by
      intro c hc
      rcases List.mem_append.mp hc with h | h
      · exact hpre c h
      · exact hpost c h
    rw [e]
    refine ⟨_, x, x, trim_blank false hb (.inl hd.space), by rw [List.drop_left]; rfl, hd.nul, ?_⟩
    rw [List.drop_left]
    unfold cell
    rw [at_zero, Res.ok_bind, if_neg hd.quote, if_pos rfl, he]
  · obtain ⟨c, u, hs, hsp, h0⟩ := field_head hf he
    have e : Padded.source ⟨pre, f, post⟩ ++ x :: r = pre ++ (f.source ++ post ++ x :: r) := by simp [Padded.source]
    have e2 : f.source ++ post ++ x :: r = c :: (u ++ post ++ x :: r) := by rw [hs]; simp
    rw [e]
    refine ⟨pre.length, c, ?_⟩
    rw [List.drop_left, e2]
    have hcell : ∃ y, cell delim (f.source ++ post ++ x :: r) = .ok (some ⟨f.text, x, y :: r⟩) := by
      cases f with
      | bare t =>
        obtain ⟨y, z, h, rfl⟩ := cell_bare (r := r) hd hf he hpost hx
        exact ⟨y, h⟩
      | inQuotes t => exact ⟨x, cell_quoted hd hf.1 hf.2 hpost (hx.elim .inl fun h => .inr (.inl h))⟩
    obtain ⟨y, h⟩ := hcell
    rw [e2] at h
    exact ⟨y, trim_blank false hpre (.inl hsp), rfl, h0, h⟩

theorem loop_zero (delim : UInt8) (fuel : Nat) (r : Bytes) (cols : List (List Bytes)) (i t : Nat) :
    loop delim (fuel + 1) ⟨0 :: r, cols, i, t⟩ = .ok (.none, cols) := by
  unfold loop
  show ((trim (0 :: r) false).bind _) = _
  rw [show trim (0 :: r) false = .ok 0 from rfl, Res.ok_bind]
  rfl

/-- Whether the loop tests for the end or starts again is the same. -/
theorem loop_again (delim : UInt8) (fuel : Nat) (s : State) (h : s.rest ≠ []) :
    ((at_ s.rest 0).bind fun c => if c = 0 then Res.ok (Error.none, s.cols) else loop delim (fuel + 1) s) = loop delim (fuel + 1) s := by
  obtain ⟨rest, cols, i, t⟩ := s
  cases rest with
  | nil => exact absurd rfl h
  | cons c r =>
    rw [at_zero, Res.ok_bind]
    by_cases hc : c = 0
    · subst hc
      rw [if_pos rfl, loop_zero]
    · rw [if_neg hc]

theorem loop_cell {delim x : UInt8} {fuel : Nat} {p : Padded} {r : Bytes} {cols : List (List Bytes)} {i t : Nat} (hd : Delim delim)
    (hp : p.Ok delim) (hx : x = delim ∨ x = 10) (hne : p.field.text ≠ [] ∨ x = delim) :
    ∃ y, loop delim (fuel + 1) ⟨p.source ++ x :: r, cols, i, t⟩ =
      ((advance delim ⟨p.source ++ x :: r, cols, i, t⟩ ⟨p.field.text, x, y :: r⟩).bind fun
      | none => .ok (.mismatchedRows, addCell cols i p.field.text)
      | some s => (at_ s.rest 0).bind fun c => if c = 0 then .ok (.none, s.cols) else loop delim fuel s) := by
  obtain ⟨n, c, y, h1, h2, h3, h4⟩ := cell_at (r := r) hd hp hx hne
  refine ⟨y, ?_⟩
  rw [loop.eq_def]
  simp only []
  rw [h1, Res.ok_bind, h2, Res.ok_bind, if_neg h3, h4, Res.ok_bind]
  simp only []
  cases advance delim ⟨p.source ++ x :: r, cols, i, t⟩ ⟨p.field.text, x, y :: r⟩ with
  | ok o => cases o <;> rfl
  | ub | stop | hang => rfl

/-- A cell that the delimiter follows. -/
theorem loop_inner {delim : UInt8} {fuel : Nat} {p : Padded} {r : Bytes} {cols : List (List Bytes)} {i t : Nat} (hd : Delim delim)
    (hp : p.Ok delim) (hr : r ≠ []) : loop delim (fuel + 2) ⟨p.source ++ delim :: r, cols, i, t⟩ =
      loop delim (fuel + 1) ⟨r, addCell cols i p.field.text, i + 1, t⟩ := by
  obtain ⟨y, h⟩ := loop_cell (fuel := fuel + 1) (cols := cols) (i := i) (t := t) (r := r) hd hp (.inl rfl) (.inr rfl)
  rw [h]
  unfold advance
  simp only []
  rw [if_pos trivial, Res.ok_bind]
  simp only [List.drop_succ_cons, List.drop_zero]
  exact loop_again delim fuel ⟨r, _, _, _⟩ hr

/-- The last cell of a row that is wide enough. -/
theorem loop_last {delim : UInt8} {fuel : Nat} {p : Padded} {r : Bytes} {cols : List (List Bytes)} {i t : Nat} (hd : Delim delim)
    (hp : p.Ok delim) (hne : p.field.text ≠ []) (hr : r ≠ []) (hw : t ≤ i) : loop delim (fuel + 2) ⟨p.source ++ 10 :: r, cols, i, t⟩ =
      loop delim (fuel + 1) ⟨r, addCell cols i p.field.text, 0, i⟩ := by
  obtain ⟨y, h⟩ := loop_cell (fuel := fuel + 1) (cols := cols) (i := i) (t := t) (r := r) hd hp (.inr rfl) (.inl hne)
  rw [h]
  unfold advance
  simp only []
  rw [if_neg (fun e => hd.nl e.symm), if_pos (.inl trivial), if_pos (by omega), Res.ok_bind, if_pos (by decide)]
  simp only [List.drop_succ_cons, List.drop_zero]
  rw [Nat.max_eq_right hw]
  exact loop_again delim fuel ⟨r, _, _, _⟩ hr

/-- The last cell of a row that is too narrow. -/
theorem loop_narrow {delim : UInt8} {fuel : Nat} {p : Padded} {r : Bytes} {cols : List (List Bytes)} {i t : Nat} (hd : Delim delim)
    (hp : p.Ok delim) (hne : p.field.text ≠ []) (hw : i < t) : loop delim (fuel + 1) ⟨p.source ++ 10 :: r, cols, i, t⟩ =
      .ok (.mismatchedRows, addCell cols i p.field.text) := by
  obtain ⟨y, h⟩ := loop_cell (fuel := fuel) (cols := cols) (i := i) (t := t) (r := r) hd hp (.inr rfl) (.inl hne)
  rw [h]
  unfold advance
  simp only []
  rw [if_neg (fun e => hd.nl e.symm), if_pos (.inl trivial), if_neg (by omega), Res.ok_bind]

/-- The cells of a row are added one after the other. -/
def addFrom (cols : List (List Bytes)) : Nat → List Bytes → List (List Bytes)
  | _, [] => cols
  | i, t :: ts => addFrom (addCell cols i t) (i + 1) ts

theorem loop_init {delim : UInt8} (hd : Delim delim) : ∀ (ps : List Padded) {fuel : Nat} {r : Bytes} {cols : List (List Bytes)} {i t : Nat},
    (∀ p ∈ ps, p.Ok delim) → r ≠ [] →
    loop delim (fuel + 1 + ps.length) ⟨ps.flatMap (fun p => p.source ++ [delim]) ++ r, cols, i, t⟩ =
      loop delim (fuel + 1) ⟨r, addFrom cols i (ps.map (·.field.text)), i + ps.length, t⟩
  | [], _, _, _, _, _, _, _ => rfl
  | p :: ps, fuel, r, cols, i, t, h, hr => by
    have e : (p :: ps).flatMap (fun p => p.source ++ [delim]) ++ r = p.source ++ delim :: (ps.flatMap (fun p => p.source ++ [delim]) ++ r) := by
      simp
    rw [e, show fuel + 1 + (p :: ps).length = (fuel + ps.length) + 2 by simp; omega,
      loop_inner hd (h p (by simp)) (by simp [hr]), show fuel + ps.length + 1 = fuel + 1 + ps.length by omega,
      loop_init hd ps (fun q hq => h q (by simp [hq])) hr]
    simp only [List.map_cons, addFrom, List.length_cons]
    rw [show i + 1 + ps.length = i + (ps.length + 1) by omega]

theorem addFrom_append (cols : List (List Bytes)) (ts us : List Bytes) (i : Nat) :
    addFrom cols i (ts ++ us) = addFrom (addFrom cols i ts) (i + ts.length) us := by
  induction ts generalizing cols i with
  | nil => rfl
  | cons t ts ih =>
    show addFrom (addCell cols i t) (i + 1) (ts ++ us) = addFrom (addFrom (addCell cols i t) (i + 1) ts) _ us
    rw [ih, show i + 1 + ts.length = i + (t :: ts).length by simp; omega]

theorem texts_eq (r : Row) : r.texts = r.init.map (·.field.text) ++ [r.last.field.text] := by simp [Row.texts, Row.cells]

theorem texts_length (r : Row) : r.texts.length = r.init.length + 1 := by rw [texts_eq]; simp

theorem row_source (delim : UInt8) (r : Row) (rest : Bytes) :
    r.source delim ++ b!"\n" ++ rest = r.init.flatMap (fun p => p.source ++ [delim]) ++ (r.last.source ++ 10 :: rest) := by
  simp [Row.source]

/-- A row that is wide enough. -/
theorem loop_row {delim : UInt8} {fuel : Nat} {r : Row} {rest : Bytes} {cols : List (List Bytes)} {t : Nat} (hd : Delim delim)
    (h : r.Ok delim) (hr : rest ≠ []) (hw : t < r.texts.length) :
    loop delim (fuel + 1 + r.texts.length) ⟨r.source delim ++ b!"\n" ++ rest, cols, 0, t⟩ =
      loop delim (fuel + 1) ⟨rest, addFrom cols 0 r.texts, 0, r.texts.length - 1⟩ := by
  have hw' : t ≤ 0 + r.init.length := by rw [texts_length] at hw; omega
  rw [row_source, texts_length, show fuel + 1 + (r.init.length + 1) = (fuel + 1) + 1 + r.init.length by omega,
    loop_init hd r.init (fun p hp => h.cells p (by simp [Row.cells, hp])) (by simp), 
    loop_last hd (h.cells r.last (by simp [Row.cells])) h.last hr hw']
  rw [texts_eq, addFrom_append]
  simp [addFrom]

/-- A row that is too narrow. -/
theorem loop_mismatch {delim : UInt8} {fuel : Nat} {r : Row} {rest : Bytes} {cols : List (List Bytes)} {t : Nat} (hd : Delim delim)
    (h : r.Ok delim) (hw : r.texts.length ≤ t) :
    loop delim (fuel + r.texts.length) ⟨r.source delim ++ b!"\n" ++ rest, cols, 0, t⟩ = .ok (.mismatchedRows, addFrom cols 0 r.texts) := by
  have hw' : 0 + r.init.length < t := by rw [texts_length] at hw; omega
  rw [row_source, texts_length, show fuel + (r.init.length + 1) = fuel + 1 + r.init.length by omega,
    loop_init hd r.init (fun p hp => h.cells p (by simp [Row.cells, hp])) (by simp),
    loop_narrow hd (h.cells r.last (by simp [Row.cells])) h.last hw']
  rw [texts_eq, addFrom_append]
  simp [addFrom]

/-! ## The columns -/

theorem modify_append (f : List Bytes → List Bytes) (a : List (List Bytes)) (c : List Bytes) (b : List (List Bytes)) :
    (a ++ c :: b).modify a.length f = a ++ f c :: b := by
  induction a with
  | nil => rfl
  | cons x a ih => simpa using ih

theorem addFrom_new (ts : List Bytes) (a : List (List Bytes)) : addFrom a a.length ts = a ++ ts.map ([·]) := by
  induction ts generalizing a with
  | nil => simp [addFrom]
  | cons t ts ih =>
    have e : addCell a a.length t = a ++ [[t]] := by
      unfold addCell
      rw [if_pos (Nat.le_refl _)]
      simp only []
      rw [modify_append]
      simp
    rw [addFrom, e, show a.length + 1 = (a ++ [[t]]).length by simp, ih]
    simp

theorem addFrom_old (ts : List Bytes) (a b : List (List Bytes)) (h : b.length = ts.length) :
    addFrom (a ++ b) a.length ts = a ++ List.zipWith (fun c t => c ++ [t]) b ts := by
  induction ts generalizing a b with
  | nil =>
    cases b with
    | nil => simp [addFrom]
    | cons => simp at h
  | cons t ts ih =>
    cases b with
    | nil => simp at h
    | cons c b =>
      have e : addCell (a ++ c :: b) a.length t = a ++ [c ++ [t]] ++ b := by
        unfold addCell
        rw [if_neg (by simp)]
        simp only []
        rw [modify_append]
        simp
      rw [addFrom, e, show a.length + 1 = (a ++ [c ++ [t]]).length by simp, ih _ _ (by simpa using h)]
      simp

theorem columns_length (w : Nat) (rows : List (List Bytes)) : (columns w rows).length = w := by simp [columns]

theorem columns_first {w : Nat} {ts : List Bytes} (h : ts.length = w) : ts.map ([·]) = columns w [ts] := by
  subst h
  apply List.ext_getElem
  · simp [columns]
  · intro i h1 h2
    simp at h1
    simp [columns, h1]

theorem columns_next {w : Nat} {rows : List (List Bytes)} {ts : List Bytes} (h : ts.length = w) :
    List.zipWith (fun c t => c ++ [t]) (columns w rows) ts = columns w (rows ++ [ts]) := by
  subst h
  apply List.ext_getElem
  · simp [columns]
  · intro i h1 h2
    have : i < ts.length := by simpa [columns] using h2
    simp [columns, this]

/-! ## The theorems -/

theorem source_cons (delim : UInt8) (r : Row) (rows : List Row) (rest : Bytes) :
    source delim (r :: rows) ++ rest = r.source delim ++ b!"\n" ++ (source delim rows ++ rest) := by
  simp [source]

/-- How often the loop turns. -/
def turns (rows : List Row) : Nat := (rows.map fun r => r.texts.length).sum

theorem loop_rows {delim : UInt8} (hd : Delim delim) {w : Nat} : ∀ (rows : List Row) (before : List (List Bytes)) {fuel : Nat} {rest : Bytes},
    before ≠ [] → rest ≠ [] → (∀ r ∈ rows, r.Ok delim ∧ r.texts.length = w) →
    loop delim (fuel + 1 + turns rows) ⟨source delim rows ++ rest, columns w before, 0, w - 1⟩ =
      loop delim (fuel + 1) ⟨rest, columns w (before ++ rows.map Row.texts), 0, w - 1⟩
  | [], before, fuel, rest, _, _, _ => by simp [turns, source]
  | r :: rows, before, fuel, rest, hb, hr, h => by
    obtain ⟨h1, h2⟩ := h r (by simp)
    have hpos : 0 < w := by rw [← h2, texts_length]; omega
    rw [source_cons, show fuel + 1 + turns (r :: rows) = (fuel + turns rows) + 1 + r.texts.length by simp [turns]; omega,
      loop_row hd h1 (by simp [hr]) (by omega), show addFrom (columns w before) 0 r.texts = _ from
        addFrom_old r.texts [] (columns w before) (by rw [columns_length, h2]), List.nil_append, columns_next h2, h2,
      show fuel + turns rows + 1 = fuel + 1 + turns rows by omega,
      loop_rows hd rows (before ++ [r.texts]) (by simp) hr fun q hq => h q (by simp [hq])]
    simp

theorem loop_table {delim : UInt8} (hd : Delim delim) {w : Nat} {r : Row} {rows : List Row} {fuel : Nat} {rest : Bytes}
    (hr : rest ≠ []) (h : ∀ q ∈ r :: rows, q.Ok delim ∧ q.texts.length = w) :
    loop delim (fuel + 1 + turns (r :: rows)) ⟨source delim (r :: rows) ++ rest, [], 0, 0⟩ =
      loop delim (fuel + 1) ⟨rest, columns w ((r :: rows).map Row.texts), 0, w - 1⟩ := by
  obtain ⟨h1, h2⟩ := h r (by simp)
  have hpos : 0 < w := by rw [← h2, texts_length]; omega
  rw [source_cons, show fuel + 1 + turns (r :: rows) = (fuel + turns rows) + 1 + r.texts.length by simp [turns]; omega,
    loop_row hd h1 (by simp [hr]) (by omega), show addFrom [] 0 r.texts = _ from addFrom_new r.texts [], List.nil_append, columns_first h2, h2,
    show fuel + turns rows + 1 = fuel + 1 + turns rows by omega,
    loop_rows hd rows [r.texts] (by simp) hr fun q hq => h q (by simp [hq])]
  rfl

theorem row_length (delim : UInt8) (r : Row) (h : r.Ok delim) : r.texts.length ≤ (r.source delim).length := by
  rw [texts_length]
  have hl : ∀ ps : List Padded, ps.length ≤ (ps.flatMap (fun p => p.source ++ [delim])).length := by
    intro ps
    induction ps with
    | nil => simp
    | cons p ps ih => simp at ih ⊢; omega
  have h2 : 0 < r.last.source.length := by
    obtain ⟨c, u, e, _⟩ := field_head (h.cells r.last (by simp [Row.cells])).2.1 h.last
    simp [Padded.source, e]
    omega
  have := hl r.init
  simp only [Row.source, List.length_append]
  omega

theorem turns_le {delim : UInt8} : ∀ {rows : List Row}, (∀ r ∈ rows, r.Ok delim) → turns rows ≤ (source delim rows).length
  | [], _ => by simp [turns]
  | r :: rows, h => by
    have h1 := row_length delim r (h r (by simp))
    have h2 := turns_le (delim := delim) (rows := rows) fun q hq => h q (by simp [hq])
    have e := congrArg List.length (source_cons delim r rows [])
    simp [turns] at *
    omega

/-- **C37**: a table of rows of the same width, each cell bare or quoted, with blanks around it, is read back: the columns hold the texts of the
cells in the order of the rows. -/
theorem C37_table {delim : UInt8} (hd : Delim delim) (w : Nat) (rows : List Row) (hne : rows ≠ [])
    (h : ∀ r ∈ rows, r.Ok delim ∧ r.texts.length = w) :
    parse (source delim rows) false delim = .ok (.none, (columns w (rows.map Row.texts)).map (⟨none, ·⟩)) := by
  obtain ⟨r, rows, rfl⟩ := List.exists_cons_of_ne_nil hne
  have hpos : 0 < w := by rw [← (h r (by simp)).2, texts_length]; omega
  have ht := turns_le (delim := delim) fun q hq => (h q hq).1
  unfold parse
  rw [show (source delim (r :: rows)).length + 2 = ((source delim (r :: rows)).length - turns (r :: rows) + 1) + 1 + turns (r :: rows) by omega,
    loop_table hd (by simp) h, loop_zero, Res.ok_bind, if_neg (by simp), if_neg (by simp only [columns_length]; omega)]
  simp

/-- **C37**: with a header, the texts of the first row are the names of the columns. -/
theorem C37_header {delim : UInt8} (hd : Delim delim) (w : Nat) (names : Row) (rows : List Row)
    (h : ∀ r ∈ names :: rows, r.Ok delim ∧ r.texts.length = w) :
    parse (source delim (names :: rows)) true delim =
      .ok (.none, (List.range w).map fun j => ⟨some (names.texts.getD j []), rows.map fun r => r.texts.getD j []⟩) := by
  have hpos : 0 < w := by rw [← (h names (by simp)).2, texts_length]; omega
  have ht := turns_le (delim := delim) fun q hq => (h q hq).1
  unfold parse
  rw [show (source delim (names :: rows)).length + 2 =
    ((source delim (names :: rows)).length - turns (names :: rows) + 1) + 1 + turns (names :: rows) by omega,
    loop_table hd (by simp) h, loop_zero, Res.ok_bind, if_neg (by simp), if_neg (by simp only [columns_length]; omega)]
  simp [columns, header]

/-- **C37**: a row that has fewer cells than the rows before it is reported. -/
theorem C37_mismatch {delim : UInt8} (hd : Delim delim) (w : Nat) (rows : List Row) (hne : rows ≠ [])
    (h : ∀ r ∈ rows, r.Ok delim ∧ r.texts.length = w) (short : Row) (hs : short.Ok delim) (hw : short.texts.length < w) (rest : Bytes) (hh : Bool) :
    ∃ cols, parse (source delim rows ++ (short.source delim ++ b!"\n" ++ rest)) hh delim = .ok (.mismatchedRows, cols) := by
  obtain ⟨r, rows, rfl⟩ := List.exists_cons_of_ne_nil hne
  have ht := turns_le (delim := delim) fun q hq => (h q hq).1
  have hs2 := row_length delim short hs
  unfold parse
  have e : source delim (r :: rows) ++ (short.source delim ++ b!"\n" ++ rest) ++ [0] =
    source delim (r :: rows) ++ (short.source delim ++ b!"\n" ++ (rest ++ [0])) := by simp
  rw [e]
  have e2 : ∃ k, (source delim (r :: rows) ++ (short.source delim ++ b!"\n" ++ rest)).length + 2 =
      (k + short.texts.length) + 1 + turns (r :: rows) := by
    refine ⟨(source delim (r :: rows) ++ (short.source delim ++ b!"\n" ++ rest)).length + 1 - short.texts.length - turns (r :: rows), ?_⟩
    simp only [List.length_append] at *
    omega
  obtain ⟨k, e2⟩ := e2
  rw [e2, loop_table hd (by simp) h, show k + short.texts.length + 1 = (k + 1) + short.texts.length by omega,
    loop_mismatch hd hs (by omega), Res.ok_bind, if_pos (by simp)]
  exact ⟨_, rfl⟩

end Verif.Csv
