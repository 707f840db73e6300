import Verif.Model.CsvWrite
import Verif.Props.CsvSafe
import Verif.Props.Printing
import Verif.Props.Stream
/-!
# C58: writing comma-separated values
-/
namespace Verif.CsvWrite
open Verif.Fmt
open Verif.Csv (escape Delim Bare)

/-! ## Specification -/

/-- How a cell is written. -/
def Cell.source (c : Cell) : Bytes := if c.quotes then b!"\"" ++ escape c.text ++ b!"\"" else c.text

/-- A line: what is in it, separated by the delimiter, and the end of the line. -/
def line (delim : UInt8) (xs : List Bytes) : Bytes := List.intercalate [delim] xs ++ b!"\n"

/-- The names of the columns, in quotes. -/
def nameLine (delim : UInt8) (cols : List Column) : Bytes := line delim (cols.map fun c => b!"\"" ++ escape (c.name.getD []) ++ b!"\"")

/-- Row `r`. -/
def rowLine (delim : UInt8) (cols : List Column) (r : Nat) : Bytes := line delim (cols.map fun c => ((c.cells[r]?).map Cell.source).getD [])

/-- The text of a table with `n` rows. -/
def text (delim : UInt8) (named : Bool) (cols : List Column) (n : Nat) : Bytes :=
  (if named then nameLine delim cols else []) ++ (List.range n).flatMap (rowLine delim cols)

/-- A text that is a C string and fits into the buffer of the formatter. -/
def Short (t : Bytes) : Prop := (0 : UInt8) ∉ t ∧ t.length + 2 < printfMax

/-- A table: `n` rows in every column, texts that fit. -/
structure Table (cols : List Column) (n : Nat) : Prop where
  rows : ∀ c ∈ cols, c.cells.length = n
  names : ∀ c ∈ cols, ∀ t, c.name = some t → Short t
  cells : ∀ c ∈ cols, ∀ x ∈ c.cells, Short x.text

/-- What can be read back: no empty texts in quotes or at the end of a row, no delimiters, ends of lines or outer white space without quotes. -/
structure Readable (delim : UInt8) (cols : List Column) : Prop where
  sep : Delim delim
  bare : ∀ c ∈ cols, ∀ x ∈ c.cells, x.quotes = false → Bare delim x.text
  quoted : ∀ c ∈ cols, ∀ x ∈ c.cells, x.quotes = true → x.text ≠ []
  last : ∀ c, cols.getLast? = some c → ∀ x ∈ c.cells, x.text ≠ []

/-! ## Formats -/

/-- Kept closed: the size of the buffer is a large literal. -/
theorem printfMax_big : 1000 < printfMax := by decide


theorem fileFmt_run (lt : Bool) {fmt : Bytes} {args : List Arg} (items : List (Bytes × Conv)) (last : Bytes) (hf : fmt ++ [0] = fmtText items last)
    (ha : args = fmtArgs items) (ho : OkFmt items last) (h : (rendered items last).length + 1 < printfMax) : fileFmt lt fmt args = .ok (rendered items last) := by
  unfold fileFmt
  rw [hf, ha, C36_fits_partial lt items last _ _ ho h (by simp), Res.ok_bind]
  simp only []
  rw [if_neg (by omega), show ((rendered items last).length + 1 - 1 : Int).toNat = (rendered items last).length by omega, List.take_left' rfl]

theorem fmt_quote (lt : Bool) : fileFmt lt b!"\"" [] = .ok b!"\"" :=
  fileFmt_run lt [] b!"\"" rfl rfl (by constructor <;> decide) (by decide)

theorem fmt_newline (lt : Bool) : fileFmt lt b!"\n" [] = .ok b!"\n" :=
  fileFmt_run lt [] b!"\n" rfl rfl (by constructor <;> decide) (by decide)

theorem okLit_nil : OkLit [] := ⟨by simp, by simp⟩

theorem fmt_char (lt : Bool) {c : UInt8} (hc : c ≠ 0) : fileFmt lt b!"%c" [.int c.toNat] = .ok [c] :=
  fileFmt_run lt [([], .char c)] [] rfl rfl ⟨okLit_nil, hc, (by intro h; cases h), okLit_nil⟩ (by show 1 + 1 < printfMax; decide)

theorem fmt_text (lt : Bool) {t : Bytes} (h : Short t) : fileFmt lt b!"%s" [.cstr (some (t ++ [0]))] = .ok t := by
  have := fileFmt_run lt [([], .cstr t [])] [] rfl rfl ⟨okLit_nil, h.1, (by intro h; cases h), okLit_nil⟩
    (by simp only [rendered, Conv.text, List.nil_append, List.append_nil]; have := h.2; omega)
  rw [show rendered [([], Conv.cstr t [])] [] = t by simp [rendered, Conv.text]] at this
  exact this

theorem fmt_len (lt : Bool) {t z : Bytes} (h : Short t) : fileFmt lt b!"%.*s" [.int t.length, .cstr (some (t ++ z))] = .ok t := by
  have hl := h.2
  have := fileFmt_run lt [([], .len t z)] [] rfl rfl ⟨okLit_nil, ⟨h.1, by unfold printfMax at hl; omega⟩, (by intro h; cases h), okLit_nil⟩
    (by simp only [rendered, Conv.text, List.nil_append, List.append_nil]; omega)
  rw [show rendered [([], Conv.len t z)] [] = t by simp [rendered, Conv.text]] at this
  exact this

theorem fmt_escape (lt : Bool) : fileFmt lt b!"%s%c" [.cstr (some (b!"\"" ++ [0])), .int (34 : UInt8).toNat] = .ok b!"\"\"" := by
  have := fileFmt_run (fmt := b!"%s%c") lt [([], .cstr b!"\"" []), ([], .char 34)] [] rfl rfl
    ⟨okLit_nil, (by show (0 : UInt8) ∉ _; decide), (by intro h; cases h), okLit_nil, (by show (34 : UInt8) ≠ 0; decide), (by intro h; cases h), okLit_nil⟩ (by decide)
  exact this

/-! ## Cells -/

theorem escape_append (a b : Bytes) : escape (a ++ b) = escape a ++ escape b := by simp [escape]

theorem escape_none {a : Bytes} (h : (34 : UInt8) ∉ a) : escape a = a := by
  induction a with
  | nil => rfl
  | cons c a ih =>
    simp only [List.mem_cons, not_or] at h
    have := ih h.2
    unfold escape at this ⊢
    rw [List.flatMap_cons, this, if_neg (fun e => h.1 e.symm)]
    rfl

theorem firstIdx_at (a b : Bytes) (h : (34 : UInt8) ∉ a) (hb : b = [] ∨ ∃ b', b = 34 :: b') :
    CStr.firstIdx (fun b => decide (b ∈ b!"\"")) (a ++ b) = a.length := by
  induction a with
  | nil => rcases hb with rfl | ⟨b', rfl⟩ <;> rfl
  | cons c a ih =>
    simp only [List.mem_cons, not_or] at h
    have hc : ¬ c = 34 := fun e => h.1 e.symm
    have := ih h.2
    simp only [CStr.firstIdx] at this ⊢
    rw [List.cons_append, List.takeWhile_cons, if_pos (by simp [hc]), List.length_cons, this]
    rfl

theorem split_quote (t : Bytes) : ∃ a b, t = a ++ b ∧ (34 : UInt8) ∉ a ∧ (b = [] ∨ ∃ b', b = 34 :: b') := by
  induction t with
  | nil => exact ⟨[], [], rfl, by simp, .inl rfl⟩
  | cons c t ih =>
    by_cases hc : c = 34
    · exact ⟨[], c :: t, rfl, by simp, .inr ⟨t, by rw [hc]⟩⟩
    · obtain ⟨a, b, rfl, ha, hb⟩ := ih
      exact ⟨c :: a, b, rfl, by simp [ha, Ne.symm hc], hb⟩

theorem Short.left {a b : Bytes} (h : Short (a ++ b)) : Short a := ⟨fun hh => h.1 (by simp [hh]), by have := h.2; simp at this; omega⟩
theorem Short.right {a b : Bytes} (h : Short (a ++ b)) : Short b := ⟨fun hh => h.1 (by simp [hh]), by have := h.2; simp at this; omega⟩

theorem at_end (a : Bytes) (c : UInt8) (z : Bytes) : Csv.at_ (a ++ c :: z) a.length = .ok c := Csv.at_append rfl

theorem printLoop_run (lt : Bool) : ∀ (fuel : Nat) (t : Bytes), Short t → t.length < fuel →
    ∃ ps, printLoop lt b!"\"" b!"\"" fuel (t ++ [0]) = .ok ps ∧ ps.flatten = escape t := by
  intro fuel
  induction fuel with
  | zero => intro t _ hf; omega
  | succ fuel ih =>
    intro t ht hf
    obtain ⟨a, b, rfl, ha, hb⟩ := split_quote t
    have hskip : CStr.skipAny (a ++ b ++ [0]) (b!"\"" ++ [0]) = .ok a.length := by
      rw [CStr.C39_skip_any (a ++ b) [] b!"\"" [] ht.1 (by decide), firstIdx_at a b ha hb]
    have hchunk : fileFmt lt b!"%.*s" [.int a.length, .cstr (some (a ++ b ++ [0]))] = .ok a := by
      rw [List.append_assoc]
      exact fmt_len lt ht.left
    unfold printLoop
    simp only [Res.bind_eq, Res.pure_eq]
    rw [hskip, Res.ok_bind, hchunk, Res.ok_bind]
    rcases hb with rfl | ⟨b, rfl⟩
    · have h0 : Csv.at_ (a ++ [] ++ [0]) a.length = .ok 0 := by rw [List.append_nil]; exact at_end a 0 []
      simp only [h0, Res.ok_bind]
      refine ⟨[a], by simp, by simp [escape_none ha]⟩
    · have h0 : Csv.at_ (a ++ 34 :: b ++ [0]) a.length = .ok 34 := by rw [List.append_assoc]; exact at_end a 34 _
      simp only [h0, Res.ok_bind, fmt_escape]
      rw [if_pos (by decide)]
      cases b with
      | nil =>
        have h1 : Csv.at_ (a ++ [34] ++ [0]) (a.length + 1) = .ok 0 := Csv.at_append (by simp)
        simp only [h1, Res.ok_bind]
        refine ⟨[a, b!"\"\""], by simp, ?_⟩
        rw [escape_append, escape_none ha]
        simp [escape]
      | cons c b =>
        have h1 : Csv.at_ (a ++ 34 :: c :: b ++ [0]) (a.length + 1) = .ok c := by
          rw [show a ++ 34 :: c :: b ++ [0] = (a ++ [34]) ++ c :: (b ++ [0]) by simp]
          exact Csv.at_append (by simp)
        have hc : c ≠ 0 := by
          intro e
          exact ht.1 (by simp [e])
        have hs : Short (c :: b) := by
          have := ht.right
          rw [show 34 :: c :: b = [34] ++ (c :: b) from rfl] at this
          exact this.right
        obtain ⟨ps, hp, he⟩ := ih (c :: b) hs (by simp at hf; simp; omega)
        have hd : List.drop (a.length + 1) (a ++ 34 :: c :: b ++ [0]) = c :: b ++ [0] := by
          rw [show a ++ 34 :: c :: b ++ [0] = (a ++ [34]) ++ (c :: b ++ [0]) by simp, List.drop_left' (by simp)]
        simp only [h1, Res.ok_bind, if_pos hc, hd, hp]
        refine ⟨a :: b!"\"\"" :: ps, rfl, ?_⟩
        rw [escape_append, escape_none ha]
        simp [he, escape]

theorem writeRecord_quotes (lt : Bool) {t : Bytes} (ht : Short t) : ∃ ps, writeRecord lt (some t) true = .ok ps ∧ ps.flatten = b!"\"" ++ escape t ++ b!"\"" := by
  obtain ⟨ps, hp, he⟩ := printLoop_run lt (t.length + 1) t ht (by omega)
  refine ⟨b!"\"" :: ps ++ [b!"\""], ?_, by simp [he]⟩
  unfold writeRecord printString
  simp only [Res.bind_eq, Res.pure_eq, fmt_quote, Res.ok_bind, hp, if_true]

theorem writeRecord_none (lt : Bool) : writeRecord lt none true = .ok [b!"\"", b!"\""] := by
  unfold writeRecord printString
  simp only [Res.bind_eq, Res.pure_eq, fmt_quote, Res.ok_bind, if_true]
  rfl

theorem writeRecord_run (lt : Bool) {c : Cell} (hc : Short c.text) : ∃ ps, writeRecord lt (some c.text) c.quotes = .ok ps ∧ ps.flatten = c.source := by
  unfold Cell.source
  cases c.quotes with
  | true => simpa using writeRecord_quotes lt hc
  | false =>
    refine ⟨[c.text], ?_, by simp⟩
    unfold writeRecord
    simp [fmt_text lt hc]

/-! ## Lines -/

theorem intercalate_cons (d : UInt8) (x : Bytes) (xs : List Bytes) :
    List.intercalate [d] (x :: xs) = x ++ (if xs.isEmpty then [] else [d]) ++ List.intercalate [d] xs := by
  cases xs <;> simp [List.intercalate, List.intersperse]

theorem sep_run (lt : Bool) {delim : UInt8} (hd : delim ≠ 0) (cs : List Column) :
    ∃ s : List Bytes, separator lt delim cs = .ok s ∧ s.flatten = if cs.isEmpty then [] else [delim] := by
  unfold separator
  cases cs with
  | nil => exact ⟨[], rfl, rfl⟩
  | cons c cs => exact ⟨[[delim]], by rw [if_neg (by simp), fmt_char lt hd]; rfl, rfl⟩

theorem writeNames_run (lt : Bool) {delim : UInt8} (hd : delim ≠ 0) : ∀ {cols : List Column}, (∀ c ∈ cols, ∀ t, c.name = some t → Short t) →
    ∃ ps, writeNames lt delim cols = .ok ps ∧ ps.flatten = List.intercalate [delim] (cols.map fun c => b!"\"" ++ escape (c.name.getD []) ++ b!"\"")
  | [], _ => ⟨[], rfl, rfl⟩
  | c :: cs, h => by
    obtain ⟨a, ha, ea⟩ : ∃ a, writeRecord lt c.name true = .ok a ∧ a.flatten = b!"\"" ++ escape (c.name.getD []) ++ b!"\"" := by
      cases hn : c.name with
      | none => exact ⟨_, writeRecord_none lt, by simp [escape]⟩
      | some t => exact writeRecord_quotes lt (h c (by simp) t hn)
    obtain ⟨s, hs, es⟩ := sep_run lt hd cs
    obtain ⟨m, hm, em⟩ := writeNames_run lt hd (cols := cs) fun c hc => h c (by simp [hc])
    refine ⟨a ++ s ++ m, ?_, ?_⟩
    · unfold writeNames
      simp only [Res.bind_eq, Res.pure_eq]
      rw [ha, Res.ok_bind, hs, Res.ok_bind, hm, Res.ok_bind]
    · rw [List.map_cons, intercalate_cons, List.flatten_append, List.flatten_append, ea, es, em]
      simp

theorem writeRow_run (lt : Bool) {delim : UInt8} (hd : delim ≠ 0) (r : Nat) : ∀ {cols : List Column}, (∀ c ∈ cols, ∃ x, c.cells[r]? = some x ∧ Short x.text) →
    ∃ ps, writeRow lt delim r cols = .ok ps ∧ ps.flatten = List.intercalate [delim] (cols.map fun c => ((c.cells[r]?).map Cell.source).getD [])
  | [], _ => ⟨[], rfl, rfl⟩
  | c :: cs, h => by
    obtain ⟨x, hx, hsh⟩ := h c (by simp)
    obtain ⟨a, ha, ea⟩ := writeRecord_run lt hsh
    obtain ⟨s, hs, es⟩ := sep_run lt hd cs
    obtain ⟨m, hm, em⟩ := writeRow_run lt hd r (cols := cs) fun c hc => h c (by simp [hc])
    refine ⟨a ++ s ++ m, ?_, ?_⟩
    · unfold writeRow
      simp only [Res.bind_eq, Res.pure_eq]
      rw [hx]
      show (Res.bind (.ok x) _) = _
      rw [Res.ok_bind, ha, Res.ok_bind, hs, Res.ok_bind, hm, Res.ok_bind]
    · rw [List.map_cons, intercalate_cons, List.flatten_append, List.flatten_append, ea, es, em, hx]
      simp

theorem writeRows_run (lt : Bool) {delim : UInt8} (hd : delim ≠ 0) {cols : List Column} {k : Nat} (h : Table cols k) : ∀ (n r : Nat), r + n = k →
    ∃ ps, writeRows lt delim cols n r = .ok ps ∧ ps.flatten = (List.range' r n).flatMap (rowLine delim cols)
  | 0, r, _ => ⟨[], rfl, rfl⟩
  | n + 1, r, hk => by
    obtain ⟨a, ha, ea⟩ := writeRow_run lt hd r (cols := cols) fun c hc => by
      have hl := h.rows c hc
      refine ⟨c.cells[r], List.getElem?_eq_getElem (by omega), h.cells c hc _ (List.getElem_mem _)⟩
    obtain ⟨m, hm, em⟩ := writeRows_run lt hd h n (r + 1) (by omega)
    refine ⟨a ++ b!"\n" :: m, ?_, ?_⟩
    · unfold writeRows
      simp only [Res.bind_eq, Res.pure_eq]
      rw [ha, Res.ok_bind, fmt_newline, Res.ok_bind, hm, Res.ok_bind]
    · rw [List.flatten_append, List.flatten_cons, ea, em, List.range'_succ, List.flatMap_cons]
      simp [rowLine, line]

/-- **C58**: what is written of a table, piece by piece, is the text of the table: the names of the columns, if the first one has a name, and the rows, every
cell exactly once, quotes doubled in quoted cells. -/
theorem C58_text (lt : Bool) {delim : UInt8} (hd : delim ≠ 0) (c : Column) (cs : List Column) {n : Nat} (hn : n ≠ 0) (h : Table (c :: cs) n) :
    ∃ ps, write lt delim (c :: cs) = .ok ps ∧ ps.flatten = text delim c.name.isSome (c :: cs) n := by
  have hl := h.rows c (by simp)
  obtain ⟨m, hm, em⟩ := writeRows_run lt hd h n 0 (by omega)
  obtain ⟨a, ha, ea⟩ := writeNames_run lt hd h.names
  rw [← List.range_eq_range'] at em
  have hw : write lt delim (c :: cs) = (writeHeader lt delim c.name.isSome (c :: cs)).bind fun h =>
      (writeRows lt delim (c :: cs) c.cells.length 0).bind fun m => .ok (h ++ m) := by
    show (if c.cells.length = 0 then Res.ok [] else _) = _
    rw [if_neg (by omega)]
    rfl
  rw [hw, hl, hm]
  unfold writeHeader
  cases hnm : c.name.isSome with
  | false => exact ⟨m, by simp, by simp [text, em]⟩
  | true =>
    refine ⟨a ++ [b!"\n"] ++ m, ?_, by simp [text, em, ea, nameLine, line]⟩
    rw [if_pos rfl, ha]
    simp only [Res.ok_bind, fmt_newline]

/-! ## Reading it back -/

/-- The cell as the specification of the parser has it. -/
def Cell.field (c : Cell) : Csv.Field := if c.quotes then .inQuotes c.text else .bare c.text

theorem field_source (c : Cell) : c.field.source = c.source := by
  unfold Cell.field Cell.source
  cases c.quotes <;> rfl

theorem field_text (c : Cell) : c.field.text = c.text := by
  unfold Cell.field
  cases c.quotes <;> rfl

def pad (f : Csv.Field) : Csv.Padded := ⟨[], f, []⟩

theorem pad_source (f : Csv.Field) : (pad f).source = f.source := by simp [pad, Csv.Padded.source]

theorem pad_ok {delim : UInt8} {f : Csv.Field} (h : f.Ok delim) : (pad f).Ok delim :=
  ⟨fun _ hc => absurd hc List.not_mem_nil, h, fun _ hc => absurd hc List.not_mem_nil⟩

/-- A row of the specification of the parser. -/
def rowOf (fs : List Csv.Field) : Csv.Row := ⟨fs.dropLast.map pad, pad (fs.getLast?.getD (.bare []))⟩

theorem intercalate_concat (d : UInt8) (xs : List Bytes) (x : Bytes) : List.intercalate [d] (xs ++ [x]) = xs.flatMap (fun a => a ++ [d]) ++ x := by
  induction xs with
  | nil => simp [List.intercalate]
  | cons a xs ih =>
    rw [List.cons_append, intercalate_cons, ih, if_neg (by simp)]
    simp

theorem rowOf_concat (fs : List Csv.Field) (f : Csv.Field) : rowOf (fs ++ [f]) = ⟨fs.map pad, pad f⟩ := by simp [rowOf]

theorem rowOf_source (delim : UInt8) {fs : List Csv.Field} (h : fs ≠ []) : (rowOf fs).source delim = List.intercalate [delim] (fs.map (·.source)) := by
  rcases List.eq_nil_or_concat fs with rfl | ⟨fs, f, rfl⟩
  · exact absurd rfl h
  · rw [List.concat_eq_append, rowOf_concat, List.map_append, List.map_singleton, intercalate_concat]
    simp [Csv.Row.source, pad_source, List.flatMap_map]

theorem rowOf_texts {fs : List Csv.Field} (h : fs ≠ []) : (rowOf fs).texts = fs.map (·.text) := by
  rcases List.eq_nil_or_concat fs with rfl | ⟨fs, f, rfl⟩
  · exact absurd rfl h
  · rw [List.concat_eq_append, rowOf_concat]
    simp [Csv.Row.texts, Csv.Row.cells, pad]

theorem rowOf_ok {delim : UInt8} {fs : List Csv.Field} (h : ∀ f ∈ fs, f.Ok delim) (hl : ∀ f, fs.getLast? = some f → f.text ≠ []) (hn : fs ≠ []) :
    (rowOf fs).Ok delim := by
  rcases List.eq_nil_or_concat fs with rfl | ⟨fs, f, rfl⟩
  · exact absurd rfl hn
  · rw [List.concat_eq_append] at *
    rw [rowOf_concat]
    refine ⟨?_, hl f (by simp)⟩
    intro p hp
    simp only [Csv.Row.cells, List.mem_append, List.mem_map, List.mem_singleton] at hp
    rcases hp with ⟨g, hg, rfl⟩ | rfl
    · exact pad_ok (h g (by simp [hg]))
    · exact pad_ok (h f (by simp))

/-- Row `r` of the table. -/
def fieldsAt (cols : List Column) (r : Nat) : List Csv.Field := cols.map fun c => ((c.cells[r]?).map Cell.field).getD (.bare [])

theorem row_eq (delim : UInt8) {cols : List Column} (hc : cols ≠ []) (r : Nat) : rowLine delim cols r = (rowOf (fieldsAt cols r)).source delim ++ b!"\n" := by
  rw [rowOf_source delim (by simp [fieldsAt, hc])]
  unfold rowLine line fieldsAt
  rw [List.map_map]
  congr 2
  apply List.map_congr_left
  intro c _
  cases h : c.cells[r]? with
  | none => simp [Csv.Field.source, h]
  | some x => simp [field_source, h]

theorem fieldsAt_ok {delim : UInt8} {cols : List Column} {n r : Nat} (h : Table cols n) (hr : Readable delim cols) (hc : cols ≠ []) (hlt : r < n) :
    (rowOf (fieldsAt cols r)).Ok delim := by
  refine rowOf_ok ?_ ?_ (by simp [fieldsAt, hc])
  · intro f hf
    simp only [fieldsAt, List.mem_map] at hf
    obtain ⟨c, hm, rfl⟩ := hf
    have hl := h.rows c hm
    rw [List.getElem?_eq_getElem (by omega)]
    simp only [Option.map_some, Option.getD_some]
    have hx : c.cells[r] ∈ c.cells := List.getElem_mem _
    have hs := h.cells c hm _ hx
    unfold Cell.field
    cases hq : c.cells[r].quotes with
    | true => exact ⟨hr.quoted c hm _ hx hq, hs.1⟩
    | false => exact hr.bare c hm _ hx hq
  · intro f hf
    simp only [fieldsAt, List.getLast?_map, Option.map_eq_some_iff] at hf
    obtain ⟨c, hm, rfl⟩ := hf
    have hl := h.rows c (List.mem_of_getLast? hm)
    rw [List.getElem?_eq_getElem (by omega)]
    simp only [Option.map_some, Option.getD_some, field_text]
    exact hr.last c hm _ (List.getElem_mem _)

theorem texts_at {cols : List Column} (hc : cols ≠ []) (r : Nat) : (rowOf (fieldsAt cols r)).texts = cols.map fun c => ((c.cells[r]?).map Cell.text).getD [] := by
  rw [rowOf_texts (by simp [fieldsAt, hc])]
  unfold fieldsAt
  rw [List.map_map]
  apply List.map_congr_left
  intro c _
  cases h : c.cells[r]? with
  | none => simp [h, Csv.Field.text]
  | some x => simp [h, field_text]

theorem column_texts {n : Nat} {c : Column} (h : c.cells.length = n) :
    ((List.range n).map fun r => ((c.cells[r]?).map Cell.text).getD []) = c.cells.map Cell.text := by
  apply List.ext_getElem
  · simp [h]
  · intro i h1 h2
    simp only [List.length_map, List.length_range] at h1
    simp only [List.getElem_map, List.getElem_range]
    rw [List.getElem?_eq_getElem (by omega)]
    rfl

/-- The rows of the table. -/
def rowsOf (cols : List Column) (n : Nat) : List Csv.Row := (List.range n).map fun r => rowOf (fieldsAt cols r)

theorem rows_source (delim : UInt8) {cols : List Column} (hc : cols ≠ []) (n : Nat) :
    (List.range n).flatMap (rowLine delim cols) = Csv.source delim (rowsOf cols n) := by
  unfold Csv.source rowsOf
  rw [List.flatMap_map]
  congr 1
  funext r
  exact row_eq delim hc r

theorem rows_ok {delim : UInt8} {cols : List Column} {n : Nat} (h : Table cols n) (hr : Readable delim cols) (hc : cols ≠ []) :
    ∀ r ∈ rowsOf cols n, r.Ok delim ∧ r.texts.length = cols.length := by
  intro r hm
  simp only [rowsOf, List.mem_map, List.mem_range] at hm
  obtain ⟨i, hi, rfl⟩ := hm
  exact ⟨fieldsAt_ok h hr hc hi, by rw [texts_at hc]; simp⟩

/-- One column of what is read. -/
theorem column_read {cols : List Column} {n : Nat} (h : Table cols n) (hc : cols ≠ []) {j : Nat} (hj : j < cols.length) :
    ((rowsOf cols n).map fun r => r.texts.getD j []) = cols[j].cells.map Cell.text := by
  rw [← column_texts (h.rows cols[j] (List.getElem_mem _))]
  unfold rowsOf
  rw [List.map_map]
  apply List.map_congr_left
  intro r _
  simp only [Function.comp, texts_at hc, List.getD_eq_getElem?_getD, List.getElem?_map]
  rw [List.getElem?_eq_getElem hj]
  rfl

/-- **C58**: a table without names is read back as it was written, whatever its cells hold. -/
theorem C58_round_trip (lt : Bool) {delim : UInt8} (c : Column) (cs : List Column) {n : Nat} (hn : n ≠ 0) (h : Table (c :: cs) n) (hr : Readable delim (c :: cs))
    (hname : ∀ x ∈ c :: cs, x.name = none) :
    ∃ ps, write lt delim (c :: cs) = .ok ps ∧
      Csv.parse ps.flatten false delim = .ok (.none, (c :: cs).map fun x => ⟨none, x.cells.map Cell.text⟩) := by
  obtain ⟨ps, hp, he⟩ := C58_text lt hr.sep.nul c cs hn h
  refine ⟨ps, hp, ?_⟩
  have hc : c :: cs ≠ [] := by simp
  rw [he, text, hname c (by simp)]
  simp only [Option.isSome_none, Bool.false_eq_true, if_false, List.nil_append]
  rw [rows_source delim hc n, Csv.C37_table hr.sep (c :: cs).length _ (by simp [rowsOf, hn]) (rows_ok h hr hc)]
  congr 2
  unfold Csv.columns
  rw [List.map_map]
  apply List.ext_getElem
  · simp
  · intro i h1 h2
    simp only [List.length_map] at h2
    simp only [List.getElem_map, List.getElem_range, Function.comp, List.map_map]
    congr 1
    exact column_read h hc h2

/-- **C58**: a table with names is read back with them. -/
theorem C58_round_trip_names (lt : Bool) {delim : UInt8} (c : Column) (cs : List Column) {n : Nat} (hn : n ≠ 0) (h : Table (c :: cs) n) (hr : Readable delim (c :: cs))
    (hname : ∀ x ∈ c :: cs, ∃ t, x.name = some t ∧ t ≠ []) :
    ∃ ps, write lt delim (c :: cs) = .ok ps ∧
      Csv.parse ps.flatten true delim = .ok (.none, (c :: cs).map fun x => ⟨x.name, x.cells.map Cell.text⟩) := by
  obtain ⟨ps, hp, he⟩ := C58_text lt hr.sep.nul c cs hn h
  refine ⟨ps, hp, ?_⟩
  have hc : c :: cs ≠ [] := by simp
  obtain ⟨t0, ht0, _⟩ := hname c (by simp)
  obtain ⟨names, hnames⟩ : ∃ names : List Csv.Field, names = (c :: cs).map fun x => .inQuotes (x.name.getD []) := ⟨_, rfl⟩
  have hne : names ≠ [] := by rw [hnames]; simp
  have hline : nameLine delim (c :: cs) = (rowOf names).source delim ++ b!"\n" := by
    rw [rowOf_source delim hne, hnames, List.map_map]
    rfl
  have htexts : (rowOf names).texts = (c :: cs).map fun x => x.name.getD [] := by
    rw [rowOf_texts hne, hnames, List.map_map]
    rfl
  have hok : (rowOf names).Ok delim := by
    refine rowOf_ok ?_ ?_ hne
    · intro f hf
      rw [hnames, List.mem_map] at hf
      obtain ⟨x, hx, rfl⟩ := hf
      obtain ⟨t, ht, htn⟩ := hname x hx
      rw [ht]
      exact ⟨htn, (h.names x hx t ht).1⟩
    · intro f hf
      rw [hnames, List.getLast?_map, Option.map_eq_some_iff] at hf
      obtain ⟨x, hx, rfl⟩ := hf
      obtain ⟨t, ht, htn⟩ := hname x (List.mem_of_getLast? hx)
      rw [ht]
      exact htn
  rw [he, text, ht0]
  simp only [Option.isSome_some, if_true]
  rw [rows_source delim hc n, hline]
  have hs : (rowOf names).source delim ++ b!"\n" ++ Csv.source delim (rowsOf (c :: cs) n) = Csv.source delim (rowOf names :: rowsOf (c :: cs) n) := by
    simp [Csv.source]
  rw [hs, Csv.C37_header hr.sep (c :: cs).length _ _ (by
    intro r hm
    rcases List.mem_cons.1 hm with rfl | hm
    · exact ⟨hok, by rw [htexts]; simp⟩
    · exact rows_ok h hr hc r hm)]
  congr 2
  apply List.ext_getElem
  · simp
  · intro i h1 h2
    simp only [List.length_map] at h2
    simp only [List.getElem_map, List.getElem_range]
    congr 1
    · rw [htexts, List.getD_eq_getElem?_getD, List.getElem?_map, List.getElem?_eq_getElem h2]
      obtain ⟨t, ht, _⟩ := hname _ (List.getElem_mem h2)
      simp [ht]
    · exact column_read h hc h2

/-! ## What is false -/

/-- C58, what is false: that a table with names but no rows is written. Nothing is. -/
theorem C58_header_only_refuted (lt : Bool) (delim : UInt8) (name : Option Bytes) (cs : List Column) : write lt delim (⟨name, []⟩ :: cs) = .ok [] := rfl

/-- C58, what is false: that the names are written. If the first column has none, the others' are not. -/
theorem C58_names_refuted (lt : Bool) {delim : UInt8} (hd : delim ≠ 0) (c : Column) (cs : List Column) {n : Nat} (hn : n ≠ 0) (h : Table (c :: cs) n) (hc : c.name = none) :
    ∃ ps, write lt delim (c :: cs) = .ok ps ∧ ps.flatten = (List.range n).flatMap (rowLine delim (c :: cs)) := by
  obtain ⟨ps, hp, he⟩ := C58_text lt hd c cs hn h
  refine ⟨ps, hp, ?_⟩
  rw [he, text, hc]
  simp

/-- C58, what is false: that a column that is too short is noticed. Its cells are read behind the end of the array. -/
theorem C58_short_column_refuted (lt : Bool) (delim : UInt8) (cell : Cell) (h : Short cell.text) (hd : delim ≠ 0) : write lt delim [⟨none, [cell]⟩, ⟨none, []⟩] = .ub := by
  obtain ⟨a, ha, _⟩ := writeRecord_run lt h
  have h2 : writeRow lt delim 0 [⟨none, []⟩] = .ub := rfl
  have h1 : writeRow lt delim 0 [⟨none, [cell]⟩, ⟨none, []⟩] = .ub := by
    unfold writeRow
    show (Res.bind (.ok cell) _) = _
    rw [Res.ok_bind]
    simp only [Res.bind_eq]
    obtain ⟨s, hs, _⟩ := sep_run lt hd [⟨none, []⟩]
    rw [ha, Res.ok_bind, hs, Res.ok_bind, h2]
    rfl
  show (Res.bind (.ok []) fun h => (writeRows lt delim [⟨none, [cell]⟩, ⟨none, []⟩] 1 0).bind fun m => .ok (h ++ m)) = _
  rw [Res.ok_bind]
  unfold writeRows
  simp only [Res.bind_eq]
  rw [h1]
  rfl

/-- A stream whose array counts nothing, the position at the end. -/
structure Bad (d : Stream) (n : Nat) : Prop where
  clone : d.clone = true
  num : d.buf.num = 0
  capacity : n = 0 ∨ d.buf.capacity = n
  cap : d.cap = n
  cursor : d.cursor = n
  room : d.buf.capacity ≤ d.buf.cells.length
  inside : n ≤ d.buf.cells.length

theorem copyIn_at {a : Arr UInt8} {n : Nat} {x : Bytes} {l : Int} (hl : l = x.length) (h : n + x.length ≤ a.cells.length) :
    Stream.copyTo a n l x = .ok { a with cells := a.cells.take n ++ x.map some ++ a.cells.drop (n + x.length) } := by
  subst hl
  unfold Stream.copyTo Arr.copyIn
  rw [if_pos ⟨by omega, by omega⟩]
  simp only [Int.toNat_natCast, List.take_length, List.length_map]
  rw [if_pos h]

theorem Bad.writeAt {d : Stream} {n : Nat} (h : Bad d n) {x : Bytes} (hx : x ≠ []) :
    ∃ d', d.writeAt true x n = .ok (true, x.length, d') ∧ d'.cap = ((n + x.length : Nat) : Int) ∧ d'.clone = true ∧ d'.buf.num = 0 ∧ d'.buf.capacity = n + x.length ∧
      n + x.length ≤ d'.buf.cells.length ∧ d'.buf.cells.take (n + x.length) = List.replicate n none ++ x.map some := by
  have hl : 0 < x.length := List.length_pos_iff.2 hx
  obtain ⟨a, ha1, ha2, ha3, ha4⟩ : ∃ a : Arr UInt8, (if d.clone && decide ((d.buf.capacity : Int) < ((n + x.length : Nat) : Int)) then
      Arr.grow .cpp true true d.buf (((n + x.length : Nat) : Int)).toNat else Res.ok (true, d.buf)) = .ok (true, a) ∧ a.num = 0 ∧ n + x.length ≤ a.cells.length ∧
      a.cells.take n = List.replicate n none := by
    have hr := h.room
    by_cases hg : n + x.length ≤ d.buf.capacity
    · have h0 : n = 0 := by rcases h.capacity with h0 | h0 <;> omega
      refine ⟨d.buf, ?_, h.num, by omega, by rw [h0]; rfl⟩
      rw [if_neg]
      simp
      omega
    · rw [if_pos (by simp [h.clone]; omega)]
      simp only [Int.toNat_natCast]
      obtain ⟨m, hm⟩ : ∃ m, m = if Arr.growFormula d.buf.capacity < n + x.length then n + x.length else Arr.growFormula d.buf.capacity := ⟨_, rfl⟩
      have hm1 : n + x.length ≤ m := by rw [hm]; split <;> omega
      refine ⟨⟨m, 0, List.replicate m none⟩, ?_, rfl, by simp; omega, by rw [List.take_replicate, Nat.min_eq_left (by omega)]⟩
      unfold Arr.grow Arr.setCapacity
      rw [← hm]
      have hm2 : m ≠ d.buf.capacity := by omega
      have h0 : 0 < n + x.length := by omega
      simp [Res.assert, hm2, h.num, h0]
  have he : max 0 ((x.length : Int) - (d.cap - n)) = x.length := by rw [h.cap]; omega
  have e3 : d.cap + (x.length : Int) = ((n + x.length : Nat) : Int) := by rw [h.cap]; omega
  have e2 : (x.length : Int) - x.length = ((0 : Nat) : Int) := by omega
  have c1 : Stream.copyTo a n ((0 : Nat) : Int) x = .ok a := by
    unfold Stream.copyTo Arr.copyIn
    rw [if_pos ⟨by omega, by omega⟩]
    simp only [Int.toNat_natCast, List.take_zero, List.map_nil, List.length_nil, Nat.add_zero, List.append_nil, List.take_append_drop]
    rw [if_pos (by omega)]
  have c2 := copyIn_at (l := x.length) rfl ha3
  refine ⟨{ d with buf := { a with cells := a.cells.take n ++ x.map some ++ a.cells.drop (n + x.length), capacity := n + x.length }, cap := ((n + x.length : Nat) : Int) }, ?_, rfl,
    h.clone, ha2, rfl, ?_, ?_⟩
  · unfold Stream.writeAt
    simp only [he, e2, e3]
    have hpos : (0 : Int) < (x.length : Int) := by omega
    have e5 : (n : Int) + ((0 : Nat) : Int) = n := by omega
    generalize hcond : (d.clone && decide ((d.buf.capacity : Int) < ((n + x.length : Nat) : Int))) = cond at ha1 ⊢
    cases cond <;> simp only [Bool.false_eq_true, if_false, if_true] at ha1 <;> simp only [ha1] <;>
    simp only [h.clone, Bool.true_or, Bool.not_true, Bool.false_eq_true, if_false, Res.bind_eq, Res.ok_bind, c1, e5, Int.toNat_natCast, List.drop_zero, c2, gt_iff_lt, hpos, decide_true,
      Bool.and_self, if_true, Res.pure_eq, Bool.true_eq_false]
    · cases ha1
      rw [show ((0 : Nat) : Int) + (x.length : Int) = x.length by omega]
    · rw [show ((0 : Nat) : Int) + (x.length : Int) = x.length by omega]
  · show n + x.length ≤ (a.cells.take n ++ x.map some ++ a.cells.drop (n + x.length)).length
    simp
    omega
  · show List.take (n + x.length) (a.cells.take n ++ x.map some ++ a.cells.drop (n + x.length)) = _
    rw [List.take_left' (by simp; omega), ha4]

theorem Bad.tell {d : Stream} {n : Nat} (h : Bad d n) : d.tell = ((n : Int), d) := by
  obtain ⟨w, c, b, cur, cap⟩ := d
  have h1 := h.cap
  have h2 := h.cursor
  simp only at h1 h2
  subst h1 h2
  have : max 0 (min (max ((n : Int) + 0) 0) (n : Int)) = (n : Int) := by omega
  unfold Stream.tell Stream.seekFrom
  simp only [this]

theorem Bad.write {d : Stream} {n : Nat} (h : Bad d n) (x : Bytes) :
    ∃ d', d.write true x = .ok (true, d') ∧ Bad d' (n + x.length) ∧ (x ≠ [] → d'.buf.cells.take (n + x.length) = List.replicate n none ++ x.map some) := by
  have hw : d.write true x = (d.writeAt true x n).bind fun r => .ok (r.1, (r.2.2.seek ((n : Int) + x.length)).2) := by
    unfold Stream.write
    simp only [h.tell, Res.bind_eq, Res.pure_eq]
  have hseek : ∀ e : Stream, e.cap = ((n + x.length : Nat) : Int) → (e.seek ((n : Int) + x.length)).2 = { e with cursor := ((n + x.length : Nat) : Int) } := by
    intro e he
    unfold Stream.seek Stream.seekFrom
    simp only [he]
    rw [show max 0 (min (max (0 + ((n : Int) + x.length)) 0) ((n + x.length : Nat) : Int)) = ((n + x.length : Nat) : Int) by omega]
  by_cases hx : x = []
  · subst hx
    have hi := h.inside
    have hr := h.room
    have hat : d.writeAt true [] n = .ok (true, 0, d) := by
      have he : max 0 (((0 : Nat) : Int) - (d.cap - n)) = 0 := by rw [h.cap]; omega
      have e5 : ((0 : Nat) : Int) - 0 = ((0 : Nat) : Int) := by omega
      have c1 : Stream.copyTo d.buf n ((0 : Nat) : Int) [] = .ok d.buf := by
        unfold Stream.copyTo Arr.copyIn
        rw [if_pos ⟨by omega, by omega⟩]
        simp only [Int.toNat_natCast, List.take_zero, List.map_nil, List.length_nil, Nat.add_zero, List.append_nil, List.take_append_drop]
        rw [if_pos (by omega)]
      have hc : decide ((d.buf.capacity : Int) < d.cap + 0) = false := by
        rw [h.cap, decide_eq_false_iff_not]
        rcases h.capacity with h0 | h0 <;> omega
      unfold Stream.writeAt
      simp only [List.length_nil, he, e5, hc, Bool.and_false, Bool.false_eq_true, if_false, h.clone, Bool.true_or, Bool.not_true, Res.bind_eq, Res.ok_bind, c1, Res.pure_eq,
        Bool.true_eq_false]
      rw [if_neg (by decide)]
      obtain ⟨w, c, b, cur, cap⟩ := d
      cases h.clone
      rfl
    refine ⟨{ d with cursor := ((n + 0 : Nat) : Int) }, ?_, ⟨h.clone, h.num, h.capacity, h.cap, rfl, hr, hi⟩, fun hh => absurd rfl hh⟩
    rw [hw, hat, Res.ok_bind]
    simp only []
    rw [hseek d h.cap]
    rfl
  · obtain ⟨d', r1, r2, r3, r4, r5, r6, r7⟩ := h.writeAt hx
    refine ⟨{ d' with cursor := ((n + x.length : Nat) : Int) }, ?_, ⟨r3, r4, .inr r5, r2, rfl, by show d'.buf.capacity ≤ _; rw [r5]; exact r6, r6⟩, fun _ => r7⟩
    rw [hw, r1, Res.ok_bind]
    simp only []
    rw [hseek d' r2]

theorem toStream_lost {d : Stream} {n : Nat} (h : Bad d n) {y : Bytes} (hy : y ≠ []) : ∀ ps : List Bytes, ∃ d', toStream true d (ps ++ [y]) = .ok d' ∧
    Bad d' (n + ps.flatten.length + y.length) ∧ d'.buf.cells.take (n + ps.flatten.length + y.length) = List.replicate (n + ps.flatten.length) none ++ y.map some := by
  intro ps
  induction ps generalizing d n with
  | nil =>
    obtain ⟨d', r1, r2, r3⟩ := h.write y
    exact ⟨d', by simp [toStream, r1], by simpa using r2, by simpa using r3 hy⟩
  | cons x ps ih =>
    obtain ⟨d', r1, r2, _⟩ := h.write x
    obtain ⟨d'', q1, q2, q3⟩ := ih r2
    rw [List.flatten_cons, List.length_append, ← Nat.add_assoc]
    refine ⟨d'', ?_, q2, q3⟩
    show ((d.write true x).bind fun r => toStream true r.2 (ps ++ [y])) = _
    rw [r1, Res.ok_bind]
    exact q1

theorem writeRows_last (lt : Bool) (delim : UInt8) (cols : List Column) : ∀ (n r : Nat) (ps : List Bytes), writeRows lt delim cols (n + 1) r = .ok ps → ∃ qs, ps = qs ++ [b!"\n"]
  | 0, r, ps, h => by
    unfold writeRows at h
    simp only [Res.bind_eq, Res.pure_eq] at h
    obtain ⟨a, h1, h⟩ := Res.bind_eq_ok.1 h
    rw [fmt_newline] at h
    cases h
    exact ⟨a, rfl⟩
  | n + 1, r, ps, h => by
    unfold writeRows at h
    simp only [Res.bind_eq, Res.pure_eq] at h
    obtain ⟨a, h1, h⟩ := Res.bind_eq_ok.1 h
    rw [fmt_newline, Res.ok_bind] at h
    obtain ⟨m, h2, h⟩ := Res.bind_eq_ok.1 h
    obtain ⟨qs, rfl⟩ := writeRows_last lt delim cols n (r + 1) m h2
    cases h
    exact ⟨a ++ b!"\n" :: qs, by simp⟩

/-- C58, what is false: that `csv_write_string` gives the text of the table. Of the whole text only the last end of the line is left, because every write that extends
the stream drops what it held. -/
theorem C58_string_refuted (lt : Bool) {delim : UInt8} (hd : delim ≠ 0) (c : Column) (cs : List Column) {n : Nat} (hn : n ≠ 0) (h : Table (c :: cs) n) :
    writeString lt true delim (c :: cs) = .ok (some (List.replicate ((text delim c.name.isSome (c :: cs) n).length - 1) none ++ [some 10])) := by
  obtain ⟨ps, hp, he⟩ := C58_text lt hd c cs hn h
  obtain ⟨qs, hqs⟩ : ∃ qs, ps = qs ++ [b!"\n"] := by
    have hl := h.rows c (by simp)
    have hw : write lt delim (c :: cs) = (writeHeader lt delim c.name.isSome (c :: cs)).bind fun h =>
        (writeRows lt delim (c :: cs) c.cells.length 0).bind fun m => .ok (h ++ m) := by
      show (if c.cells.length = 0 then Res.ok [] else _) = _
      rw [if_neg (by omega)]
      rfl
    rw [hw] at hp
    obtain ⟨a, h1, hp⟩ := Res.bind_eq_ok.1 hp
    obtain ⟨m, h2, hp⟩ := Res.bind_eq_ok.1 hp
    obtain ⟨k, hk⟩ : ∃ k, c.cells.length = k + 1 := ⟨n - 1, by omega⟩
    rw [hk] at h2
    obtain ⟨qs, rfl⟩ := writeRows_last lt delim _ k 0 m h2
    cases hp
    exact ⟨a ++ qs, by simp⟩
  obtain ⟨d, hnew, hh, hc, hnum, hcap⟩ := Stream.C57_new
  have hroom := hh.room hc
  have hb : Bad d 0 := ⟨hc, hnum, .inl rfl, hh.cap, hh.pos, hroom.2.1, Nat.zero_le _⟩
  obtain ⟨d', r1, r2, r3⟩ := toStream_lost hb (y := b!"\n") (by simp) qs
  simp only [Nat.zero_add] at r2 r3
  have hlen : (text delim c.name.isSome (c :: cs) n).length - 1 = qs.flatten.length := by
    rw [← he, hqs]
    simp
  unfold writeString
  simp only [hnew, Res.bind_eq, Res.ok_bind, Res.pure_eq]
  rw [hp, Res.ok_bind, hqs, r1, Res.ok_bind]
  simp only [Stream.contents, r2.cap, Int.toNat_natCast]
  rw [r3, hlen]
  rfl

/-! ## A table -/

/-- Two columns, one with quotes and a comma inside. -/
def demo : List Column := [⟨some b!"na\"me", [⟨b!"a", false⟩, ⟨b!"b,\"c\"", true⟩]⟩, ⟨some b!"x", [⟨b!"1", false⟩, ⟨b!"2 3", false⟩]⟩]

theorem demo_table : Table demo 2 ∧ Readable 44 demo := by
  have hs : ∀ t : Bytes, (0 : UInt8) ∉ t → t.length < 900 → Short t := fun t h1 h2 => ⟨h1, by have := printfMax_big; omega⟩
  refine ⟨⟨?_, ?_, ?_⟩, ⟨⟨by decide, by decide, by decide⟩, ?_, ?_, ?_⟩⟩
  · intro c hc
    simp only [demo, List.mem_cons, List.not_mem_nil, or_false] at hc
    rcases hc with rfl | rfl <;> rfl
  · intro c hc t ht
    simp only [demo, List.mem_cons, List.not_mem_nil, or_false] at hc
    rcases hc with rfl | rfl <;> cases ht <;> exact hs _ (by decide) (by decide)
  · intro c hc x hx
    simp only [demo, List.mem_cons, List.not_mem_nil, or_false] at hc
    rcases hc with rfl | rfl <;> simp only [List.mem_cons, List.not_mem_nil, or_false] at hx <;> rcases hx with rfl | rfl <;> exact hs _ (by decide) (by decide)
  · intro c hc x hx hq
    simp only [demo, List.mem_cons, List.not_mem_nil, or_false] at hc
    rcases hc with rfl | rfl <;> simp only [List.mem_cons, List.not_mem_nil, or_false] at hx <;> rcases hx with rfl | rfl <;>
      first
      | (cases hq; done)
      | exact ⟨by decide, fun c hc => by cases hc; decide, fun c hc => by cases hc; decide⟩
  · intro c hc x hx hq
    simp only [demo, List.mem_cons, List.not_mem_nil, or_false] at hc
    rcases hc with rfl | rfl <;> simp only [List.mem_cons, List.not_mem_nil, or_false] at hx <;> rcases hx with rfl | rfl <;> first | (cases hq; done) | decide
  · intro c hc x hx
    cases hc
    have hx : x ∈ [(⟨b!"1", false⟩ : Cell), ⟨b!"2 3", false⟩] := hx
    simp only [List.mem_cons, List.not_mem_nil, or_false] at hx
    rcases hx with rfl | rfl <;> decide

example : ∃ ps, write true 44 demo = .ok ps ∧ ps.flatten = b!"\"na\"\"me\",\"x\"\na,1\n\"b,\"\"c\"\"\",2 3\n" := by
  obtain ⟨ps, h1, h2⟩ := C58_text true (delim := 44) (by decide) _ _ (by decide) demo_table.1
  exact ⟨ps, h1, by rw [h2]; decide⟩

example : ∃ ps, write true 44 demo = .ok ps ∧ Csv.parse ps.flatten true 44 = .ok (.none, [⟨some b!"na\"me", [b!"a", b!"b,\"c\""]⟩, ⟨some b!"x", [b!"1", b!"2 3"]⟩]) :=
  C58_round_trip_names true _ _ (by decide) demo_table.1 demo_table.2 (by
    intro x hx
    simp only [List.mem_cons, List.not_mem_nil, or_false] at hx
    rcases hx with rfl | rfl
    · exact ⟨_, rfl, by decide⟩
    · exact ⟨_, rfl, by decide⟩)

end Verif.CsvWrite
